import Verif.Core.Cull
import Verif.Math.MatrixProps
import Mathlib.Tactic.Linarith
import Mathlib.Tactic.SplitIfs
import Mathlib.Tactic.Push

/-! # Lemmas on bounds -/

namespace Verif.Core.Cull

open Verif.Math.Matrix4

variable {K : Type} [Field K] [LinearOrder K] [IsStrictOrderedRing K]

/-- A point is in a box. -/
def In (p : Pt K) (b : Box K) : Prop := ∀ i, b.lo i ≤ p i ∧ p i ≤ b.hi i

/-- The weight of a point under a matrix: the fourth homogeneous coordinate of its image. -/
def weight (m : Mat K) (p : Pt K) : K := Matrix.vecMul (hom p) m.m 3

omit [Field K] [LinearOrder K] [IsStrictOrderedRing K] in
theorem exists_of_mem_corner {b : Box K} (p : Pt K) (h : ∀ i, p i = b.lo i ∨ p i = b.hi i) : p ∈ corners b := by
  have e : p = ![p 0, p 1, p 2] := by funext i; fin_cases i <;> rfl
  have el : b.lo = ![b.lo 0, b.lo 1, b.lo 2] := by funext i; fin_cases i <;> rfl
  have eh : b.hi = ![b.hi 0, b.hi 1, b.hi 2] := by funext i; fin_cases i <;> rfl
  unfold corners
  rcases h 0 with h0 | h0 <;> rcases h 1 with h1 | h1 <;> rcases h 2 with h2 | h2 <;> rw [e, h0, h1, h2]
  · rw [← el]; simp
  · simp
  · simp
  · simp
  · simp
  · simp
  · simp
  · rw [← eh]; simp

omit [Field K] [LinearOrder K] [IsStrictOrderedRing K] in
theorem corner_spec {b : Box K} {p : Pt K} (h : p ∈ corners b) : ∀ i, p i = b.lo i ∨ p i = b.hi i := by
  unfold corners at h
  simp only [List.mem_cons, List.not_mem_nil, or_false] at h
  intro i
  rcases h with h | h | h | h | h | h | h | h <;> subst h <;> fin_cases i <;> simp

/-- An affine function is at most as large as at some corner. -/
theorem corner_max (b : Box K) (a0 a1 a2 d : K) (p : Pt K) (hp : In p b) :
    ∃ c ∈ corners b, a0 * p 0 + a1 * p 1 + a2 * p 2 + d ≤ a0 * c 0 + a1 * c 1 + a2 * c 2 + d := by
  have key : ∀ (a x l h : K), l ≤ x → x ≤ h → a * x ≤ a * (if 0 ≤ a then h else l) := by
    intro a x l h h1 h2
    split_ifs with ha
    · exact mul_le_mul_of_nonneg_left h2 ha
    · push Not at ha
      exact mul_le_mul_of_nonpos_left h1 ha.le
  refine ⟨![if 0 ≤ a0 then b.hi 0 else b.lo 0, if 0 ≤ a1 then b.hi 1 else b.lo 1, if 0 ≤ a2 then b.hi 2 else b.lo 2],
    exists_of_mem_corner _ ?_, ?_⟩
  · intro i
    fin_cases i
    · show (if 0 ≤ a0 then b.hi 0 else b.lo 0) = _ ∨ (if 0 ≤ a0 then b.hi 0 else b.lo 0) = _
      split_ifs
      · exact Or.inr rfl
      · exact Or.inl rfl
    · show (if 0 ≤ a1 then b.hi 1 else b.lo 1) = _ ∨ (if 0 ≤ a1 then b.hi 1 else b.lo 1) = _
      split_ifs
      · exact Or.inr rfl
      · exact Or.inl rfl
    · show (if 0 ≤ a2 then b.hi 2 else b.lo 2) = _ ∨ (if 0 ≤ a2 then b.hi 2 else b.lo 2) = _
      split_ifs
      · exact Or.inr rfl
      · exact Or.inl rfl
  · have h0 := key a0 (p 0) (b.lo 0) (b.hi 0) (hp 0).1 (hp 0).2
    have h1 := key a1 (p 1) (b.lo 1) (b.hi 1) (hp 1).1 (hp 1).2
    have h2 := key a2 (p 2) (b.lo 2) (b.hi 2) (hp 2).1 (hp 2).2
    show _ ≤ a0 * (if 0 ≤ a0 then b.hi 0 else b.lo 0) + a1 * (if 0 ≤ a1 then b.hi 1 else b.lo 1)
      + a2 * (if 0 ≤ a2 then b.hi 2 else b.lo 2) + d
    linarith

omit [LinearOrder K] [IsStrictOrderedRing K] in
theorem vecMul_hom (m : Mat K) (p : Pt K) (j : Fin 4) :
    Matrix.vecMul (hom p) m.m j = m.m 0 j * p 0 + m.m 1 j * p 1 + m.m 2 j * p 2 + m.m 3 j := by
  simp only [Matrix.vecMul, dotProduct, Fin.sum_univ_four, hom]
  simp
  ring

theorem apply3_some (m : Mat K) (hm : Sound m) (p : Pt K) (hw : weight m p ≠ 0) :
    apply3 m p = some fun j => Matrix.vecMul (hom p) m.m j.castSucc / weight m p := by
  rw [apply3_spec m hm, if_neg (show ¬ Matrix.vecMul (hom p) m.m 3 = 0 from hw)]
  rfl

theorem weight_pos_box (m : Mat K) (b : Box K) (hw : ∀ c ∈ corners b, 0 < weight m c) (p : Pt K) (hp : In p b) : 0 < weight m p := by
  obtain ⟨c, hc, h⟩ := corner_max b (-(m.m 0 3)) (-(m.m 1 3)) (-(m.m 2 3)) (-(m.m 3 3)) p hp
  have h1 := hw c hc
  rw [weight, vecMul_hom] at h1 ⊢
  linarith

theorem mapM_some {α β : Type} (f : α → Option β) (g : α → β) : ∀ l : List α, (∀ x ∈ l, f x = some (g x)) → l.mapM f = some (l.map g) := by
  intro l
  induction l with
  | nil => intro _; rfl
  | cons x l ih =>
    intro h
    rw [List.mapM_cons, h x (by simp), ih (fun y hy => h y (by simp [hy]))]
    rfl

omit [Field K] [IsStrictOrderedRing K] in
theorem grow_le (ps : List (Pt K)) : ∀ b : Box K,
    (∀ i, (ps.foldl grow b).lo i ≤ b.lo i ∧ b.hi i ≤ (ps.foldl grow b).hi i) ∧
    (∀ p ∈ ps, In p (ps.foldl grow b)) ∧
    (∀ i, ((ps.foldl grow b).lo i = b.lo i ∨ ∃ p ∈ ps, (ps.foldl grow b).lo i = p i) ∧
      ((ps.foldl grow b).hi i = b.hi i ∨ ∃ p ∈ ps, (ps.foldl grow b).hi i = p i)) := by
  induction ps with
  | nil => intro b; exact ⟨fun i => ⟨le_refl _, le_refl _⟩, fun p h => absurd h (by simp), fun i => ⟨Or.inl rfl, Or.inl rfl⟩⟩
  | cons x ps ih =>
    intro b
    obtain ⟨h1, h2, h3⟩ := ih (grow b x)
    have g1 : ∀ i, (grow b x).lo i ≤ b.lo i ∧ (grow b x).lo i ≤ x i ∧ ((grow b x).lo i = b.lo i ∨ (grow b x).lo i = x i) := by
      intro i
      show (if x i < b.lo i then x i else b.lo i) ≤ b.lo i ∧ (if x i < b.lo i then x i else b.lo i) ≤ x i ∧
        ((if x i < b.lo i then x i else b.lo i) = b.lo i ∨ (if x i < b.lo i then x i else b.lo i) = x i)
      split_ifs with h
      · exact ⟨h.le, le_refl _, Or.inr rfl⟩
      · exact ⟨le_refl _, not_lt.1 h, Or.inl rfl⟩
    have g2 : ∀ i, b.hi i ≤ (grow b x).hi i ∧ x i ≤ (grow b x).hi i ∧ ((grow b x).hi i = b.hi i ∨ (grow b x).hi i = x i) := by
      intro i
      show b.hi i ≤ (if x i > b.hi i then x i else b.hi i) ∧ x i ≤ (if x i > b.hi i then x i else b.hi i) ∧
        ((if x i > b.hi i then x i else b.hi i) = b.hi i ∨ (if x i > b.hi i then x i else b.hi i) = x i)
      split_ifs with h
      · exact ⟨le_of_lt h, le_refl _, Or.inr rfl⟩
      · exact ⟨le_refl _, not_lt.1 h, Or.inl rfl⟩
    rw [List.foldl_cons]
    refine ⟨fun i => ⟨(h1 i).1.trans (g1 i).1, (g2 i).1.trans (h1 i).2⟩, fun p hp => ?_, fun i => ⟨?_, ?_⟩⟩
    · rcases List.mem_cons.1 hp with rfl | hp
      · exact fun i => ⟨(h1 i).1.trans (g1 i).2.1, (g2 i).2.1.trans (h1 i).2⟩
      · exact h2 p hp
    · rcases (h3 i).1 with h | ⟨q, hq, h⟩
      · rcases (g1 i).2.2 with g | g
        · exact Or.inl (h.trans g)
        · exact Or.inr ⟨x, by simp, h.trans g⟩
      · exact Or.inr ⟨q, by simp [hq], h⟩
    · rcases (h3 i).2 with h | ⟨q, hq, h⟩
      · rcases (g2 i).2.2 with g | g
        · exact Or.inl (h.trans g)
        · exact Or.inr ⟨x, by simp, h.trans g⟩
      · exact Or.inr ⟨q, by simp [hq], h⟩

/-- The transformed box is the least one around the corners (and those of the first box), and the image of each point is in it. -/
theorem transform_spec (big : K) (m : Mat K) (hm : Sound m) (b : Box K) (hw : ∀ c ∈ corners b, 0 < weight m c) :
    ∃ r, transform big m b = some r ∧ (∀ p, In p b → ∃ q, apply3 m p = some q ∧ In q r) ∧
      ∀ i, (r.lo i = big ∨ ∃ c ∈ corners b, ∃ q, apply3 m c = some q ∧ r.lo i = q i) ∧
        (r.hi i = -big ∨ ∃ c ∈ corners b, ∃ q, apply3 m c = some q ∧ r.hi i = q i) := by
  let g : Pt K → Pt K := fun p j => Matrix.vecMul (hom p) m.m j.castSucc / weight m p
  have hg : ∀ c ∈ corners b, apply3 m c = some (g c) := fun c hc => apply3_some m hm c (hw c hc).ne'
  have e : transform big m b = some (((corners b).map g).foldl grow (start big)) := by
    unfold transform
    rw [mapM_some _ g _ hg]
    rfl
  obtain ⟨-, h2, h3⟩ := grow_le ((corners b).map g) (start big)
  refine ⟨_, e, fun p hp => ⟨g p, apply3_some m hm p (weight_pos_box m b hw p hp).ne', fun i => ?_⟩, fun i => ⟨?_, ?_⟩⟩
  · have wp := weight_pos_box m b hw p hp
    set r := ((corners b).map g).foldl grow (start big) with hr
    have hc : ∀ c ∈ corners b, r.lo i * weight m c ≤ Matrix.vecMul (hom c) m.m i.castSucc ∧
        Matrix.vecMul (hom c) m.m i.castSucc ≤ r.hi i * weight m c := by
      intro c hc
      have := h2 (g c) (List.mem_map.2 ⟨c, hc, rfl⟩) i
      exact ⟨(le_div_iff₀ (hw c hc)).1 this.1, (div_le_iff₀ (hw c hc)).1 this.2⟩
    constructor
    · show r.lo i ≤ Matrix.vecMul (hom p) m.m i.castSucc / weight m p
      rw [le_div_iff₀ wp]
      obtain ⟨c, hcm, h⟩ := corner_max b (r.lo i * m.m 0 3 - m.m 0 i.castSucc) (r.lo i * m.m 1 3 - m.m 1 i.castSucc)
        (r.lo i * m.m 2 3 - m.m 2 i.castSucc) (r.lo i * m.m 3 3 - m.m 3 i.castSucc) p hp
      have := (hc c hcm).1
      rw [weight, vecMul_hom, vecMul_hom] at this ⊢
      linarith
    · show Matrix.vecMul (hom p) m.m i.castSucc / weight m p ≤ r.hi i
      rw [div_le_iff₀ wp]
      obtain ⟨c, hcm, h⟩ := corner_max b (m.m 0 i.castSucc - r.hi i * m.m 0 3) (m.m 1 i.castSucc - r.hi i * m.m 1 3)
        (m.m 2 i.castSucc - r.hi i * m.m 2 3) (m.m 3 i.castSucc - r.hi i * m.m 3 3) p hp
      have := (hc c hcm).2
      rw [weight, vecMul_hom, vecMul_hom] at this ⊢
      linarith
  · rcases (h3 i).1 with h | ⟨q, hq, h⟩
    · exact Or.inl h
    · obtain ⟨c, hc, rfl⟩ := List.mem_map.1 hq
      exact Or.inr ⟨c, hc, _, hg c hc, h⟩
  · rcases (h3 i).2 with h | ⟨q, hq, h⟩
    · exact Or.inl h
    · obtain ⟨c, hc, rfl⟩ := List.mem_map.1 hq
      exact Or.inr ⟨c, hc, _, hg c hc, h⟩

/-! ## Affine matrices -/

omit [LinearOrder K] [IsStrictOrderedRing K] in
theorem weight_affine (m : Mat K) (h : Affine m) (p : Pt K) : weight m p = 1 := by
  obtain ⟨h0, h1, h2, h3⟩ := h
  rw [weight, vecMul_hom, h0, h1, h2, h3]
  ring

theorem affine_mul (a b : Mat K) (ha : Sound a) (hb : Sound b) (h1 : Affine a) (h2 : Affine b) : Affine (mul a b) := by
  have e := (C60_product a b ha hb).1
  obtain ⟨a0, a1, a2, a3⟩ := h1
  obtain ⟨b0, b1, b2, b3⟩ := h2
  refine ⟨?_, ?_, ?_, ?_⟩ <;> rw [e, Matrix.mul_apply, Fin.sum_univ_four, a0, a1, a2, a3]
  · rw [b0]; ring
  · rw [b1]; ring
  · rw [b2]; ring
  · rw [b3]; ring

theorem affine_inverse (a b : Mat K) (ha : Sound a) (h : Affine a) (hb : inverse a = some b) : Sound b ∧ Affine b ∧ b.m * a.m = 1 ∧ a.m * b.m = 1 := by
  obtain ⟨s, e1, e2⟩ := (C60_inverse a ha).2 b hb
  obtain ⟨a0, a1, a2, a3⟩ := h
  have col : ∀ i : Fin 4, b.m i 3 = (1 : Matrix (Fin 4) (Fin 4) K) i 3 := by
    intro i
    rw [← e1, Matrix.mul_apply, Fin.sum_univ_four, a0, a1, a2, a3]
    ring
  exact ⟨s, ⟨by rw [col]; rfl, by rw [col]; rfl, by rw [col]; rfl, by rw [col]; rfl⟩, e1, e2⟩

/-- An affine matrix applied to a point. -/
theorem apply3_affine (m : Mat K) (hm : Sound m) (h : Affine m) (p : Pt K) :
    apply3 m p = some fun j => Matrix.vecMul (hom p) m.m j.castSucc := by
  rw [apply3_some m hm p (by rw [weight_affine m h]; exact one_ne_zero)]
  congr 1
  funext j
  rw [weight_affine m h, div_one]

omit [LinearOrder K] [IsStrictOrderedRing K] in
theorem hom_affine (m : Mat K) (h : Affine m) (p : Pt K) : hom (fun j => Matrix.vecMul (hom p) m.m j.castSucc) = Matrix.vecMul (hom p) m.m := by
  obtain ⟨h0, h1, h2, h3⟩ := h
  funext j
  fin_cases j
  · rfl
  · rfl
  · rfl
  · show (1 : K) = Matrix.vecMul (hom p) m.m 3
    rw [vecMul_hom, h0, h1, h2, h3]
    ring

/-- A matrix and its inverse. -/
theorem apply3_cancel (a b : Mat K) (ha : Sound a) (hb : Sound b) (h1 : Affine a) (h2 : Affine b) (e : a.m * b.m = 1) (p q : Pt K)
    (hq : apply3 a p = some q) : apply3 b q = some p := by
  rw [apply3_affine a ha h1] at hq
  have := Option.some.inj hq
  subst this
  rw [apply3_affine b hb h2, hom_affine a h1, Matrix.vecMul_vecMul, e, Matrix.vecMul_one]
  congr 1
  funext j
  fin_cases j <;> rfl

end Verif.Core.Cull
