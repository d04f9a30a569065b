import Verif.Shader.Arith
import Mathlib.Tactic.FieldSimp
import Mathlib.Tactic.Linarith
import Mathlib.Tactic.NormNum
import Mathlib.Tactic.FinCases
import Mathlib.Tactic.Positivity
import Mathlib.Data.Rat.Floor

/-!
Lemmas about functions of the shading language
-/

namespace Verif.Shader.Arith

variable {K : Type} [Field K] [LinearOrder K] [IsStrictOrderedRing K] [FloorRing K]

namespace Spec

/-- The smooth step as a function of the part of the way. -/
def ease (v : K) : K := 3 * v ^ 2 - 2 * v ^ 3

/-- The nearest number of an interval. -/
def Nearest (x mn mx r : K) : Prop := mn ≤ r ∧ r ≤ mx ∧ ∀ y, mn ≤ y → y ≤ mx → |r - x| ≤ |y - x|

/-- The part of the interval between `a` and `b` that is not below the edge, for `a < b`. -/
def partAbove (edge a b : K) : K := (b - max a (min edge b)) / (b - a)

end Spec

open Spec

/-! ## Steps -/

theorem ease_mono (a b : K) (ha : 0 ≤ a) (hab : a ≤ b) (hb : b ≤ 1) : ease a ≤ ease b := by
  unfold ease
  have h1 : 0 ≤ b - a := sub_nonneg.mpr hab
  have : 3 * b ^ 2 - 2 * b ^ 3 - (3 * a ^ 2 - 2 * a ^ 3) = (b - a) * (3 * (a + b) - 2 * (a ^ 2 + a * b + b ^ 2)) := by ring
  have h2 : 0 ≤ 3 * (a + b) - 2 * (a ^ 2 + a * b + b ^ 2) := by
    nlinarith [mul_nonneg ha (sub_nonneg.mpr hb), mul_nonneg ha (sub_nonneg.mpr (hab.trans hb)),
      mul_nonneg (ha.trans hab) (sub_nonneg.mpr hb), mul_nonneg (ha.trans hab) (sub_nonneg.mpr (hab.trans hb))]
  nlinarith [mul_nonneg h1 h2]

theorem smooth_in (mn mx v : K) (h1 : mn ≤ v) (h2 : v < mx) : smoothstep mn mx v = ease ((v - mn) / (mx - mn)) := by
  unfold smoothstep ease
  rw [if_neg (not_lt.mpr h1), if_neg (not_le.mpr h2)]
  simp only []
  ring

theorem part_range (mn mx v : K) (h1 : mn ≤ v) (h2 : v < mx) : 0 ≤ (v - mn) / (mx - mn) ∧ (v - mn) / (mx - mn) < 1 := by
  have : 0 < mx - mn := sub_pos.mpr (h1.trans_lt h2)
  refine ⟨div_nonneg (sub_nonneg.mpr h1) this.le, ?_⟩
  rw [div_lt_one this]; linarith

theorem ease_range (a : K) (h0 : 0 ≤ a) (h1 : a ≤ 1) : 0 ≤ ease a ∧ ease a ≤ 1 := by
  have e0 := ease_mono 0 a le_rfl h0 h1
  have e1 := ease_mono a 1 h0 h1 le_rfl
  have z0 : ease (0 : K) = 0 := by unfold ease; ring
  have z1 : ease (1 : K) = 1 := by unfold ease; ring
  rw [z0] at e0; rw [z1] at e1
  exact ⟨e0, e1⟩

theorem clamp_part (edge c w : K) (hw : 0 < w) :
    clamp ((c + w / 2 - edge) / w) 0 1 = partAbove edge (c - w / 2) (c + w / 2) := by
  unfold clamp partAbove
  have e : c + w / 2 - (c - w / 2) = w := by ring
  rw [e]
  split_ifs with h1 h2
  · rw [div_lt_iff₀ hw, zero_mul] at h1
    rw [min_eq_right (by linarith), max_eq_right (by linarith), sub_self, zero_div]
  · rw [lt_div_iff₀ hw, one_mul] at h2
    rw [min_eq_left (by linarith), max_eq_left (by linarith), e, div_self hw.ne']
  · rw [not_lt, le_div_iff₀ hw, zero_mul] at h1
    rw [not_lt, div_le_iff₀ hw, one_mul] at h2
    rw [min_eq_left (by linarith), max_eq_right (by linarith)]

/-! ## Numbers -/

theorem toInt_spec (x : K) (n : Int) (h : toInt x = some n) :
    (0 ≤ x → (n : K) ≤ x ∧ x < n + 1) ∧ (x < 0 → x ≤ n ∧ (n : K) < x + 1) := by
  unfold toInt at h
  simp only [] at h
  split_ifs at h with h1 h2 h2
  · have := Option.some.inj h
    subst this
    exact ⟨fun _ => ⟨Int.floor_le x, Int.lt_floor_add_one x⟩, fun h => absurd h1 (not_le.mpr h)⟩
  · have := Option.some.inj h
    subst this
    exact ⟨fun h => absurd h h1, fun _ => ⟨Int.le_ceil x, Int.ceil_lt_add_one x⟩⟩

/-! ## Least and greatest -/

theorem min2_spec (a b : K) : (min2 a b = a ∨ min2 a b = b) ∧ min2 a b ≤ a ∧ min2 a b ≤ b := by
  unfold min2; split_ifs with h
  · exact ⟨Or.inl rfl, le_rfl, h.le⟩
  · exact ⟨Or.inr rfl, not_lt.mp h, le_rfl⟩

theorem max2_spec (a b : K) : (max2 a b = a ∨ max2 a b = b) ∧ a ≤ max2 a b ∧ b ≤ max2 a b := by
  unfold max2; split_ifs with h
  · exact ⟨Or.inr rfl, h.le, le_rfl⟩
  · exact ⟨Or.inl rfl, le_rfl, not_lt.mp h⟩

theorem minFold (more : List K) : ∀ a : K, more.foldl min2 a ∈ a :: more ∧ ∀ x ∈ a :: more, more.foldl min2 a ≤ x := by
  induction more with
  | nil => intro a; simp
  | cons b l ih =>
    intro a
    obtain ⟨i1, i2⟩ := ih (min2 a b)
    obtain ⟨m1, m2, m3⟩ := min2_spec a b
    have h0 := i2 _ List.mem_cons_self
    refine ⟨?_, ?_⟩
    · rw [List.foldl_cons]
      rcases List.mem_cons.mp i1 with h | h
      · rw [h]; rcases m1 with m | m <;> simp [m]
      · simp [h]
    · intro x hx
      rw [List.foldl_cons]
      rcases List.mem_cons.mp hx with rfl | hx
      · exact h0.trans m2
      rcases List.mem_cons.mp hx with rfl | hx
      · exact h0.trans m3
      · exact i2 x (List.mem_cons_of_mem _ hx)

theorem maxFold (more : List K) : ∀ a : K, more.foldl max2 a ∈ a :: more ∧ ∀ x ∈ a :: more, x ≤ more.foldl max2 a := by
  induction more with
  | nil => intro a; simp
  | cons b l ih =>
    intro a
    obtain ⟨i1, i2⟩ := ih (max2 a b)
    obtain ⟨m1, m2, m3⟩ := max2_spec a b
    have h0 := i2 _ List.mem_cons_self
    refine ⟨?_, ?_⟩
    · rw [List.foldl_cons]
      rcases List.mem_cons.mp i1 with h | h
      · rw [h]; rcases m1 with m | m <;> simp [m]
      · simp [h]
    · intro x hx
      rw [List.foldl_cons]
      rcases List.mem_cons.mp hx with rfl | hx
      · exact m2.trans h0
      rcases List.mem_cons.mp hx with rfl | hx
      · exact m3.trans h0
      · exact i2 x (List.mem_cons_of_mem _ hx)

theorem minComp (more : List (Fin 3 → K)) (i : Fin 3) : ∀ a, more.foldl min3 a i = (more.map (· i)).foldl min2 (a i) := by
  induction more with
  | nil => intro a; rfl
  | cons b l ih => intro a; rw [List.foldl_cons, ih]; rfl

theorem maxComp (more : List (Fin 3 → K)) (i : Fin 3) : ∀ a, more.foldl max3 a i = (more.map (· i)).foldl max2 (a i) := by
  induction more with
  | nil => intro a; rfl
  | cons b l ih => intro a; rw [List.foldl_cons, ih]; rfl

/-! ## Functions that are not defined everywhere -/

/-! ## Vectors -/

theorem unit_sq (v : Fin 3 → ℝ) (h : v ≠ 0) : dot (unit v) (unit v) = 1 ∧ ∃ c > 0, v = fun k => c * unit v k := by
  have hpos : 0 < dot v v := by
    have h0 : 0 ≤ dot v v := by unfold dot; nlinarith [mul_self_nonneg (v 0), mul_self_nonneg (v 1), mul_self_nonneg (v 2)]
    rcases lt_or_eq_of_le h0 with g | g
    · exact g
    · exfalso; apply h
      unfold dot at g
      have a0 := mul_self_nonneg (v 0)
      have a1 := mul_self_nonneg (v 1)
      have a2 := mul_self_nonneg (v 2)
      funext k
      fin_cases k
      · show v 0 = 0
        exact mul_self_eq_zero.mp (by linarith)
      · show v 1 = 0
        exact mul_self_eq_zero.mp (by linarith)
      · show v 2 = 0
        exact mul_self_eq_zero.mp (by linarith)
  have hl : 0 < Real.sqrt (dot v v) := Real.sqrt_pos.mpr hpos
  have hu : unit v = fun k => v k / Real.sqrt (dot v v) := by unfold unit; simp only []; rw [if_pos hl.ne']
  refine ⟨?_, Real.sqrt (dot v v), hl, ?_⟩
  · have e : dot (unit v) (unit v) = dot v v / (Real.sqrt (dot v v) * Real.sqrt (dot v v)) := by
      rw [hu]; unfold dot; field_simp
    rw [e, Real.mul_self_sqrt hpos.le, div_self hpos.ne']
  · funext k; rw [hu]; field_simp

theorem normFold (varying : Bool) (rs : Nat → Bool) (v res : Nat → Fin 3 → ℝ) (n : Nat) :
    let s := (List.range n).foldl (normalizeAt varying rs v) (![1, 0, 0], ![1, 0, 0], res)
    s.2.1 = unit s.1 ∧ s.2.2 = fun i => if i < n ∧ (varying = false ∨ rs i = true) then unit (v i) else res i := by
  induction n with
  | zero =>
    refine ⟨?_, ?_⟩
    · show (![1, 0, 0] : Fin 3 → ℝ) = unit ![1, 0, 0]
      unfold unit
      have : dot (![1, 0, 0] : Fin 3 → ℝ) ![1, 0, 0] = 1 := by unfold dot; simp
      rw [this]
      funext k; simp
    · funext i; simp
  | succ n ih =>
    obtain ⟨i1, i2⟩ := ih
    simp only [List.range_succ, List.foldl_append, List.foldl_cons, List.foldl_nil]
    generalize (List.range n).foldl (normalizeAt varying rs v) (![1, 0, 0], ![1, 0, 0], res) = s at i1 i2 ⊢
    obtain ⟨old, u, r⟩ := s
    simp only [] at i1 i2
    subst i1 i2
    unfold normalizeAt
    simp only []
    by_cases h : varying = false ∨ rs n = true
    · rw [if_pos h]
      by_cases g : old ≠ v n
      · rw [if_pos g]
        refine ⟨rfl, ?_⟩
        funext i
        simp only []
        by_cases hi : i = n
        · subst hi; rw [if_pos rfl, if_pos ⟨Nat.lt_succ_self _, h⟩]
        · rw [if_neg hi]
          have : i < n + 1 ↔ i < n := by omega
          simp only [this]
      · rw [if_neg g]
        refine ⟨rfl, ?_⟩
        funext i
        simp only []
        by_cases hi : i = n
        · subst hi; rw [if_pos rfl, if_pos ⟨Nat.lt_succ_self _, h⟩, not_not.mp g]
        · rw [if_neg hi]
          have : i < n + 1 ↔ i < n := by omega
          simp only [this]
    · rw [if_neg h]
      refine ⟨rfl, ?_⟩
      funext i
      simp only []
      by_cases hi : i = n
      · subst hi
        rw [if_neg (fun c => absurd c.1 (lt_irrefl _)), if_neg (fun c => h c.2)]
      · have : i < n + 1 ↔ i < n := by omega
        simp only [this]

end Verif.Shader.Arith
