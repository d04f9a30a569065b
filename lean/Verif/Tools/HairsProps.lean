import Verif.Tools.HairsLemmas

/-!
C94: child hairs.
-/

namespace Verif.Tools.Hairs

open Spec

/-- C94: parents have positive weights that add to 1, and nearer parents do not have less; none are
defined if all parents are where the child is. -/
theorem C94_parents (dis : List ℝ) (maxDis : ℝ) (hl : dis.getLast? = some maxDis) (hm : 0 < maxDis) :
    ∃ ws, parentWeights dis = some ws ∧ ws.length = dis.length ∧ (∀ w ∈ ws, 0 < w) ∧ ws.sum = 1 ∧
    ∀ (i j : Nat) (d e w x : ℝ), dis[i]? = some d → dis[j]? = some e → ws[i]? = some w → ws[j]? = some x →
      d ≤ e → x ≤ w := by
  unfold parentWeights
  rw [hl]
  simp only [if_neg hm.ne']
  have hne : dis ≠ [] := by rintro rfl; simp at hl
  set ws := dis.map fun d => decay d maxDis with hws
  have hpos : ∀ w ∈ ws, 0 < w := by
    intro w hw
    obtain ⟨d, _, rfl⟩ := List.mem_map.mp hw
    exact decay_pos _ _
  have hs : 0 < ws.sum := List.sum_pos ws hpos (by simp [hws, hne])
  refine ⟨_, rfl, by simp [hws], ?_, ?_, ?_⟩
  · intro w hw
    obtain ⟨x, hx, rfl⟩ := List.mem_map.mp hw
    exact div_pos (hpos x hx) hs
  · have : (ws.map fun w => w / ws.sum) = ws.map fun w => w * (ws.sum)⁻¹ := by
      simp [div_eq_mul_inv]
    rw [this, List.sum_map_mul_right, List.map_id']
    exact mul_inv_cancel₀ hs.ne'
  · intro i j d e w x hd he hw hx hde
    simp only [hws, List.getElem?_map, hd, he, Option.map_some, Option.some.injEq] at hw hx
    rw [← hw, ← hx]
    have h0 := decay_anti hm hde
    rw [← hws]
    exact div_le_div_of_nonneg_right h0 hs.le

/-- C94 fails if the parents are where the child is: the weights are zero by zero. -/
theorem C94_parents_violated : parentWeights [0, 0, 0, 0] = none := by
  simp [parentWeights]

/-- C94: values of children are the weighted means of those of the parents, so they stay between bounds
of them. -/
theorem C94_mean (stride : Nat) (src : Nat → ℝ) (parents : List (Nat × ℝ)) (k : Nat) (lo hi : ℝ)
    (h1 : (parents.map Prod.snd).sum = 1) (h0 : ∀ p ∈ parents, 0 ≤ p.2)
    (hb : ∀ p ∈ parents, lo ≤ src (stride * p.1 + k) ∧ src (stride * p.1 + k) ≤ hi) :
    interpolated stride src parents k = (parents.map fun p => p.2 * src (stride * p.1 + k)).sum ∧
    lo ≤ interpolated stride src parents k ∧ interpolated stride src parents k ≤ hi := by
  have key : ∀ (ps : List (Nat × ℝ)) (acc : ℝ),
      ps.foldl (fun acc p => acc + src (stride * p.1 + k) * p.2) acc =
      acc + (ps.map fun p => p.2 * src (stride * p.1 + k)).sum := by
    intro ps
    induction ps with
    | nil => intro acc; simp
    | cons p ps ih => intro acc; rw [List.foldl_cons, ih, List.map_cons, List.sum_cons]; ring
  have bound : ∀ ps : List (Nat × ℝ), (∀ p ∈ ps, 0 ≤ p.2) →
      (∀ p ∈ ps, lo ≤ src (stride * p.1 + k) ∧ src (stride * p.1 + k) ≤ hi) →
      lo * (ps.map Prod.snd).sum ≤ (ps.map fun p => p.2 * src (stride * p.1 + k)).sum ∧
      (ps.map fun p => p.2 * src (stride * p.1 + k)).sum ≤ hi * (ps.map Prod.snd).sum := by
    intro ps
    induction ps with
    | nil => intro _ _; simp
    | cons p ps ih =>
      intro a b
      obtain ⟨i1, i2⟩ := ih (fun q hq => a q (List.mem_cons_of_mem _ hq)) (fun q hq => b q (List.mem_cons_of_mem _ hq))
      have a' := a p (List.mem_cons_self ..)
      obtain ⟨b1, b2⟩ := b p (List.mem_cons_self ..)
      simp only [List.map_cons, List.sum_cons]
      constructor <;> nlinarith
  unfold interpolated
  rw [key, zero_add]
  obtain ⟨b1, b2⟩ := bound parents h0 hb
  rw [h1] at b1 b2
  exact ⟨rfl, by linarith, by linarith⟩

/-- C94: the correction moves all points of a hair by the same vector, and its root to where the hair
is emitted. -/
theorem C94_root (emit : Nat → Nat → ℝ) (root p nc : Nat) (vars : List Var) (v : Var)
    (hv : vars[p]? = some v) (hc : v.corrected = true) (h3 : v.stride % 3 = 0) (hr : 3 * root + 3 ≤ v.stride) :
    ∃ val', (correct emit root p nc vars.length vars)[p]? = some { v with val := val' } ∧
      ∀ c < nc, ∀ j < 3, val' (v.stride * c + 3 * root + j) = emit c j ∧
        ∀ k, 3 * k + 3 ≤ v.stride → val' (v.stride * c + 3 * k + j) - val' (v.stride * c + 3 * root + j) =
          v.val (v.stride * c + 3 * k + j) - v.val (v.stride * c + 3 * root + j) := by
  have hp : p < vars.length := (List.getElem?_eq_some_iff.mp hv).1
  obtain ⟨val', e, h⟩ := correct_var emit root p nc p _ vars v hp hv hc h3 hr
  rw [valOf_early _ _ _ _ _ _ (le_refl p)] at h
  have hval : valOf vars p = v.val := by unfold valOf; rw [hv]
  rw [hval] at h
  have hs : 0 < v.stride := by omega
  obtain ⟨q, hq⟩ : 3 ∣ v.stride := Nat.dvd_of_mod_eq_zero h3
  have at_ : ∀ c < nc, ∀ j < 3, ∀ k, 3 * k + 3 ≤ v.stride → val' (v.stride * c + 3 * k + j) =
      v.val (v.stride * c + 3 * k + j) + (emit c j - v.val (v.stride * c + 3 * root + j)) := by
    intro c hcn j hj k hk
    have hdiv : (v.stride * c + 3 * k + j) / v.stride = c := by
      rw [Nat.add_assoc, Nat.mul_add_div hs, Nat.div_eq_of_lt (by omega)]
      omega
    have hmod : (v.stride * c + 3 * k + j) % 3 = j := by
      have : v.stride * c = 3 * (q * c) := by rw [hq]; ring
      omega
    rw [h, hdiv, if_pos hcn]
    unfold moved
    rw [hdiv, hmod]
  refine ⟨val', e, ?_⟩
  intro c hcn j hj
  refine ⟨?_, ?_⟩
  · rw [at_ c hcn j hj root (by omega)]; ring
  · intro k hk
    rw [at_ c hcn j hj k hk, at_ c hcn j hj root (by omega)]; ring

/-- C94: variables of points before `P` are moved like `P`, if they have as many points. -/
theorem C94_points_partial (emit : Nat → Nat → ℝ) (root p i nc : Nat) (vars : List Var) (v : Var) (hip : i < p)
    (hp : p < vars.length) (hv : vars[i]? = some v) (hc : v.corrected = true) (h3 : v.stride % 3 = 0)
    (hr : 3 * root + 3 ≤ v.stride) :
    ∃ val', (correct emit root p nc vars.length vars)[i]? = some { v with val := val' } ∧
      ∀ m, m < v.stride * nc → val' m = moved emit root v.stride (valOf vars p) v.val m := by
  obtain ⟨val', e, h⟩ := correct_var emit root p nc i vars.length vars v (by omega) hv hc h3 hr
  rw [valOf_early _ _ _ _ _ _ hip.le] at h
  refine ⟨val', e, ?_⟩
  intro m hm
  rw [h, if_pos (Nat.div_lt_of_lt_mul hm)]

/-- C94 fails for variables of points after `P`: the root of `P` is already where it should be by
then, so they are not moved at all. -/
theorem C94_points_violated (emit : Nat → Nat → ℝ) (root p i nc : Nat) (vars : List Var) (v w : Var)
    (hip : p < i) (hv : vars[i]? = some v) (hw : vars[p]? = some w) (hc : v.corrected = true)
    (hcw : w.corrected = true) (hst : v.stride = w.stride) (h3 : v.stride % 3 = 0)
    (hr : 3 * root + 3 ≤ v.stride) :
    (correct emit root p nc vars.length vars)[i]? = some v := by
  have hi : i < vars.length := (List.getElem?_eq_some_iff.mp hv).1
  obtain ⟨val', e, h⟩ := correct_var emit root p nc i _ vars v hi hv hc h3 hr
  obtain ⟨P', eP, hP⟩ := correct_var emit root p nc p i vars w hip hw hcw (hst ▸ h3) (hst ▸ hr)
  rw [valOf_early _ _ _ _ _ _ (le_refl p)] at hP
  have hval : valOf vars p = w.val := by unfold valOf; rw [hw]
  have hval' : valOf (correct emit root p nc i vars) p = P' := by unfold valOf; rw [eP]
  rw [hval] at hP
  rw [hval'] at h
  have hs : 0 < v.stride := by omega
  obtain ⟨q, hq⟩ : 3 ∣ v.stride := Nat.dvd_of_mod_eq_zero h3
  rw [e]
  have : val' = v.val := by
    funext m
    rw [h]
    by_cases hm : m / v.stride < nc
    · rw [if_pos hm]
      unfold moved
      rw [hP, ← hst]
      have h3' : m % 3 < 3 := Nat.mod_lt _ (by norm_num)
      obtain ⟨hdiv, hmod⟩ := index_parts v.stride (m / v.stride) root (m % 3) h3 hr h3'
      rw [hdiv, if_pos hm]
      unfold moved
      rw [hdiv, hmod]
      ring
    · rw [if_neg hm]
  rw [this]

/-- C94: other variables are not moved. -/
theorem C94_others (emit : Nat → Nat → ℝ) (root p i nc : Nat) (vars : List Var) (v : Var)
    (hv : vars[i]? = some v) (hc : v.corrected = false) :
    (correct emit root p nc vars.length vars)[i]? = some v := by
  have hi : i < vars.length := (List.getElem?_eq_some_iff.mp hv).1
  obtain ⟨d, hd⟩ : ∃ d, vars.length = i + 1 + d := ⟨vars.length - (i + 1), by omega⟩
  rw [hd, correct_done]
  unfold correct
  have hv' : (correct emit root p nc i vars)[i]? = some v := by
    rw [correct_later _ _ _ _ _ _ _ (le_refl i)]; exact hv
  simp only [hv', hc, Bool.false_eq_true, if_false]

/-- C94: clumping leaves the root of a hair and moves the tip by all of the clump, or the other way
round for negative clumps; a clump of 1 has the tip at that of the parent. -/
theorem C94_clump (clump shape : ℝ) (n : Nat) (child parent : ℝ) (hn : 2 ≤ n) (hs : -1 < shape) :
    (0 < clump → clumped clump shape n 0 child parent = child ∧
      clumpWeight clump shape n (n - 1) = clump) ∧
    (clump < 0 → clumped clump shape n (n - 1) child parent = child ∧ clumpWeight clump shape n 0 = -clump) ∧
    (clump = 1 → clumped clump shape n (n - 1) child parent = parent) := by
  have hp : clumpPow shape ≠ 0 := by
    unfold clumpPow
    by_cases h : shape < 0
    · rw [if_pos h]; linarith
    · rw [if_neg h]; linarith
  have hn1 : ((n - 1 : Nat) : ℝ) = (n : ℝ) - 1 := by rw [Nat.cast_sub (by omega)]; simp
  have hn0 : (n : ℝ) - 1 ≠ 0 := by
    rw [← hn1]; exact_mod_cast (by omega : n - 1 ≠ 0)
  have tip : 0 < clump → clumpWeight clump shape n (n - 1) = clump := by
    intro h
    unfold clumpWeight
    simp only [if_neg (not_lt.mpr h.le), hn1, div_self hn0, Real.one_rpow, mul_one, abs_of_pos h]
  refine ⟨fun h => ⟨?_, tip h⟩, fun h => ⟨?_, ?_⟩, fun h => ?_⟩
  · unfold clumped clumpWeight
    simp [not_lt.mpr h.le, Real.zero_rpow hp]
  · unfold clumped clumpWeight
    simp only [if_pos h, hn1, div_self hn0, sub_self, Real.zero_rpow hp, mul_zero]
    ring
  · unfold clumpWeight
    simp [h, abs_of_neg h]
  · unfold clumped
    rw [tip (by rw [h]; norm_num), h]
    ring

/-- C94: with a clump of at most 1 either way, points stay between the child and the parent. -/
theorem C94_between (clump shape : ℝ) (n k : Nat) (hn : 2 ≤ n) (hk : k < n) (hs : -1 ≤ shape)
    (hc : |clump| ≤ 1) : 0 ≤ clumpWeight clump shape n k ∧ clumpWeight clump shape n k ≤ 1 := by
  have hp : 0 ≤ clumpPow shape := by
    unfold clumpPow
    by_cases h : shape < 0
    · rw [if_pos h]; linarith
    · rw [if_neg h]; linarith
  have hn0 : 0 < (n : ℝ) - 1 := by
    have : (2 : ℝ) ≤ n := by exact_mod_cast hn
    linarith
  have hk0 : (0 : ℝ) ≤ k := Nat.cast_nonneg _
  have hk1 : (k : ℝ) + 1 ≤ n := by exact_mod_cast hk
  have v0 : 0 ≤ (k : ℝ) / ((n : ℝ) - 1) := by positivity
  have v1 : (k : ℝ) / ((n : ℝ) - 1) ≤ 1 := by rw [div_le_one hn0]; linarith
  unfold clumpWeight
  simp only
  set v := (if clump < 0 then 1 - (k : ℝ) / ((n : ℝ) - 1) else (k : ℝ) / ((n : ℝ) - 1)) with hv
  have hv01 : 0 ≤ v ∧ v ≤ 1 := by
    rw [hv]
    by_cases h : clump < 0
    · rw [if_pos h]; constructor <;> linarith
    · rw [if_neg h]; exact ⟨v0, v1⟩
  have p0 := Real.rpow_nonneg hv01.1 (clumpPow shape)
  have p1 := Real.rpow_le_one hv01.1 hv01.2 hp
  have a0 := abs_nonneg clump
  constructor
  · positivity
  · nlinarith

/-- C94 fails for cubic hairs: their root is point 1, which clumping moves off the surface. -/
theorem C94_clump_violated : rootIndex false (-1) = 1 ∧ clumped 1 0 4 1 0 3 = 1 := by
  refine ⟨rfl, ?_⟩
  unfold clumped clumpWeight clumpPow
  norm_num

/-- C94: the index of the root. -/
theorem C94_root_index (given : Int) : (0 ≤ given → ∀ linear, rootIndex linear given = given) ∧
    (given < 0 → rootIndex true given = 0 ∧ rootIndex false given = 1) := by
  unfold rootIndex
  constructor
  · intro h l; rw [if_neg (by omega)]
  · intro h; rw [if_pos h, if_pos h]; exact ⟨rfl, rfl⟩

/-- C94: each parent has the same number of values of a variable, or it is refused. -/
theorem C94_storage (size n : Nat) (hn : 0 < n) : storageCount true size n = some 0 ∧
    ∀ s, storageCount false size n = some s ↔ size = n * s := by
  unfold storageCount
  refine ⟨by simp, ?_⟩
  intro s
  simp only [Bool.false_eq_true, if_false]
  by_cases h : size % n = 0
  · rw [if_neg (by simp [h])]
    constructor
    · intro e
      rw [Option.some.injEq] at e
      rw [← e, Nat.mul_div_cancel' (Nat.dvd_of_mod_eq_zero h)]
    · intro e
      rw [e, Nat.mul_div_cancel_left _ hn]
  · rw [if_pos (by simpa using h)]
    constructor
    · intro e; cases e
    · intro e
      rw [e] at h
      simp at h

/-- Non-vacuity: a variable of points before and one after `P`, with one hair of two points. -/
example : ∃ (vars : List Var) (v w : Var), vars[1]? = some v ∧ vars[2]? = some w ∧ v.corrected = true ∧
    w.corrected = true ∧ v.stride = 6 ∧ w.stride = 6 :=
  ⟨[⟨true, 6, fun _ => 0⟩, ⟨true, 6, fun _ => 0⟩, ⟨true, 6, fun _ => 0⟩], _, _, rfl, rfl, rfl, rfl, rfl, rfl⟩

end Verif.Tools.Hairs
