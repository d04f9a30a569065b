import Verif.Shader.LightsLemmas

/-!
C103: Loops over lights
-/

namespace Verif.Shader.Lights

open Verif.Shader.Arith (dot unit clamp)
open Verif.Shader.Optics (Vec reflect)
open Spec

/-- The loops take exactly the lights that are not ambient, each once and in order, and none if lighting is turned off. -/
theorem C103_visits {S : Type} (lighting : Bool) (lights : List Light) (body : Light → S → S) (s : S) :
    loop lighting lights body s
      = if lighting then (lights.filter fun l => !l.ambient).foldl (fun s l => body l s) s else s := by
  cases lighting with
  | false => rfl
  | true =>
    obtain ⟨h1, h2, h3, h4⟩ := skip_spec lights 0 (by omega)
    rw [loop, init]
    simp only [Bool.not_true, Bool.false_eq_true, if_false, if_true]
    rw [List.drop_zero] at h3
    rw [h3]
    by_cases g : skip lights 0 < lights.length
    · simp only [if_pos g]
      exact turns_eq _ _ _ _ _ g (h4 g) (by omega)
    · simp only [if_neg g]
      rw [List.drop_eq_nil_of_le (by omega)]
      rfl

example : loop true [sample true none, sample false none, sample true none, sample false (some 1)]
    (fun l (s : List Bool) => s ++ [l.nondiffuse.isSome]) [] = [false, true] := by
  rw [C103_visits]; simp [sample]

/-- `ambient` is the sum of the colours of the ambient lights; where the shader is not running it is black. If lighting is
turned off it stores nothing. -/
theorem C103_ambient (lights : List Light) (rs : Nat → Bool) (result : Nat → Vec) :
    (∀ g k, rs g = true → ambient true lights rs result g k = ((lights.filter (·.ambient)).map fun l => l.Cl g k).sum) ∧
    (∀ g k, rs g = false → ambient true lights rs result g k = 0) ∧
    ambient false lights rs result = result := by
  refine ⟨fun g k h => ?_, fun g k h => ?_, rfl⟩
  · have := ambient_fold lights rs (fun _ _ => 0) g k
    rw [if_pos h, zero_add] at this
    exact this
  · have := ambient_fold lights rs (fun _ _ => 0) g k
    rw [h, if_neg (by simp), zero_add] at this
    exact this

example : ambient true [sample true none, sample false none, sample true none] (fun _ => true) (fun _ _ => 7) 0 1 = 2 := by
  rw [(C103_ambient _ _ _).1 0 1 rfl]; simp [sample]; norm_num

/-- In an `illuminance` loop with a light that is taken, `L` points to the light and `Cl` is its colour at every running point,
and the statement runs exactly where the light is within the cone, for an axis of length one; other points keep what they had. -/
theorem C103_illuminance_partial (cat : List Char) (axis : Nat → Vec) (angle : Nat → ℝ) (l : Light) (rs : Nat → Bool) (e : Env)
    (g : Nat) (ht : exec cat l.category = true) (hax : len (axis g) = 1) (h0 : 0 ≤ angle g) (h1 : angle g ≤ Real.pi) :
    let r := illuminance cat (some axis) (some angle) l rs e
    (rs g = true → (r.L g = fun k => -l.L g k) ∧ r.Cl g = l.Cl g ∧
      (r.cur g = true ↔ Real.cos (angle g) ≤ inner (toLight l g) (axis g))) ∧
    (rs g = false → r.L g = e.L g ∧ r.Cl g = e.Cl g ∧ r.cur g = e.cur g) := by
  intro r
  have hr : r = illuminance cat (some axis) (some angle) l rs e := rfl
  clear_value r
  unfold illuminance at hr
  rw [if_pos ht] at hr
  subst hr
  refine ⟨fun h => ?_, fun h => ?_⟩
  · refine ⟨by simp [h], by simp [h], ?_⟩
    have hb := inner_bound _ _ (len_dir fun k => -l.L g k) hax
    have := outside_iff (fun k => -l.L g k) (axis g) (angle g) h0 h1 (Or.inl (by rw [unit_eq]; exact hb))
    simp only [h, if_true, Option.map_some, Option.getD_some, Bool.not_eq_true', decide_eq_false_iff_not]
    rw [this, not_lt]
    rfl
  · simp [h]

example : (illuminance [] (some fun _ => ![0, 0, 1]) (some fun _ => Real.pi / 2) (sample false none) (fun _ => true)
    ⟨fun _ => 0, fun _ => 0, fun _ => false⟩).cur 0 = true := by
  have p := Real.pi_pos
  have h := C103_illuminance_partial [] (fun _ => ![0, 0, 1]) (fun _ => Real.pi / 2) (sample false none) (fun _ => true)
    ⟨fun _ => 0, fun _ => 0, fun _ => false⟩ 0 rfl (by simp [len]) (by show 0 ≤ Real.pi / 2; linarith) (by show Real.pi / 2 ≤ Real.pi; linarith)
  rw [(h.1 rfl).2.2]
  simp [sample, inner, toLight, dir, len]

/-- Without axis and angle every light reaches every running point. -/
theorem C103_everywhere (cat : List Char) (l : Light) (rs : Nat → Bool) (e : Env) (g : Nat) (h : rs g = true)
    (ht : exec cat l.category = true) :
    (illuminance cat none none l rs e).cur g = true ∧ (illuminance cat none none l rs e).Cl g = l.Cl g := by
  unfold illuminance
  rw [if_pos ht]
  have : ¬ outside (fun k => -l.L g k) ![0, 1, 0] Real.pi := by
    unfold outside
    simp only [gt_iff_lt, not_lt]
    exact Real.arccos_le_pi _
  simp [h, this]

/-- The axis is not made one unit long: with an axis of length 2 and the angle zero a light beside the axis is taken. -/
theorem C103_axis_violated : ∃ (axis : Vec) (l : Light), (toLight l 0 ≠ dir axis) ∧
    (illuminance [] (some fun _ => axis) (some fun _ => 0) l (fun _ => true) ⟨fun _ => 0, fun _ => 0, fun _ => false⟩).cur 0
      = true := by
  have hl : Real.sqrt ((-(-3)) * (-(-3)) + (-0) * (-0) + (-(-4)) * (-(-4))) = (5 : ℝ) := by
    rw [show ((-(-3)) * (-(-3)) + (-0) * (-0) + (-(-4)) * (-(-4)) : ℝ) = 5 * 5 by norm_num]
    exact Real.sqrt_mul_self (by norm_num)
  refine ⟨![0, 0, 2], ⟨false, none, none, none, fun _ => ![-3, 0, -4], fun _ _ => 1⟩, fun h => ?_, ?_⟩
  · have := congrFun h 0
    simp only [toLight, dir, len, Matrix.cons_val_zero, Matrix.cons_val_one, Matrix.cons_val] at this
    rw [hl] at this
    norm_num at this
  · unfold illuminance
    rw [if_pos (by rfl)]
    simp only [if_true, Option.map_some, Option.getD_some, Bool.not_eq_true', decide_eq_false_iff_not]
    unfold outside
    rw [unit_eq]
    have : dot (dir fun k => -(![-3, 0, -4] : Vec) k) ![0, 0, 2] = 8 / 5 := by
      simp only [dot, dir, len, Matrix.cons_val_zero, Matrix.cons_val_one, Matrix.cons_val]
      rw [hl]
      norm_num
    simp only [this, gt_iff_lt, not_lt]
    rw [show clamp (8 / 5 : ℝ) (-1) 1 = 1 by unfold clamp; norm_num, Real.arccos_one]

open Classical in
/-- `diffuse` follows Lambert's law, unless a light without the variable `__nondiffuse` comes after one that sets it. -/
theorem C103_diffuse_partial (lights : List Light) (N : Nat → Vec) (rs : Nat → Bool) (e : Env) (g : Nat) (k : Fin 3)
    (h : rs g = true) (hs : Said Light.nondiffuse lights) :
    Lights.diffuse true lights N rs e g k = Spec.diffuse lights (N g) g k := by
  unfold Lights.diffuse
  rw [C103_visits, if_pos rfl,
    fold_sum Light.nondiffuse (diffuseBody N rs) g k (fun l => l.Cl g k * max 0 (inner (toLight l g) (N g))) ?_ ?_ _ _
      (said_filter hs), zero_add, List.filter_filter]
  · unfold Spec.diffuse
    congr 2
    apply List.filter_congr
    intro l _
    cases l.ambient <;> simp
  · intro l s hv
    unfold diffuseBody
    simp only [if_pos hv]
  · intro l s hv
    have hn : ¬ readVar l.nondiffuse s.non ≠ 0 := fun h => h hv
    unfold diffuseBody
    simp only [if_neg hn]
    refine ⟨hv, ?_⟩
    obtain ⟨i1, i2, i3⟩ := illum_at N l rs s.env g h
    rw [i1, i2]
    by_cases hc : 0 ≤ inner (toLight l g) (N g)
    · rw [if_pos (i3.mpr hc), max_eq_right hc, unit_eq]
      rfl
    · rw [if_neg (fun h => hc (i3.mp h)), max_eq_left (by linarith)]
      simp

open Classical in
/-- `specular` adds the highlights of the lights in front of the surface, unless a light without the variable `__nonspecular`
comes after one that sets it. The roughness is not zero. -/
theorem C103_specular_partial (lights : List Light) (N V : Nat → Vec) (rough : Nat → ℝ) (rs : Nat → Bool) (e : Env) (g : Nat)
    (k : Fin 3) (h : rs g = true) (_hr : 0 < rough g) (hs : Said Light.nonspecular lights) :
    Lights.specular true lights N V rough rs e g k = Spec.specular lights (N g) (V g) (rough g) g k := by
  unfold Lights.specular
  rw [C103_visits, if_pos rfl,
    fold_sum Light.nonspecular (specularBody N V rough rs) g k
      (fun l => if decide (0 ≤ inner (toLight l g) (N g)) then
        l.Cl g k * (max 0 (inner (N g) (dir fun j => toLight l g j + V g j))) ^ (8 / rough g) else 0) ?_ ?_ _ _
      (said_filter hs), zero_add, List.filter_filter, sum_filter_ite, List.filter_filter]
  · unfold Spec.specular
    congr 2
    apply List.filter_congr
    intro l _
    cases l.ambient <;> simp [Bool.and_comm]
  · intro l s hv
    unfold specularBody
    simp only [if_pos hv]
  · intro l s hv
    have hn : ¬ readVar l.nonspecular s.non ≠ 0 := fun h => h hv
    unfold specularBody
    simp only [if_neg hn]
    refine ⟨hv, ?_⟩
    obtain ⟨i1, i2, i3⟩ := illum_at N l rs s.env g h
    rw [i1, i2]
    by_cases hc : 0 ≤ inner (toLight l g) (N g)
    · rw [if_pos (i3.mpr hc), if_pos (by simpa using hc), unit_eq, unit_eq, one_div_div]
      rfl
    · rw [if_neg (fun h => hc (i3.mp h)), if_neg (by simpa using hc)]
      simp

open Classical in
/-- `phong` adds the highlights of the lights in front of the surface about the mirrored direction of the eye. -/
theorem C103_phong (lights : List Light) (N V : Nat → Vec) (size : Nat → ℝ) (rs : Nat → Bool) (e : Env) (g : Nat)
    (k : Fin 3) (h : rs g = true) (_hz : 0 ≤ size g) :
    Lights.phong true lights N V size rs e g k = Spec.phong lights (N g) (V g) (size g) g k := by
  unfold Lights.phong
  rw [C103_visits, if_pos rfl,
    fold_phong (phongBody N V size rs) g k
      (fun l => if decide (0 ≤ inner (toLight l g) (N g)) then
        l.Cl g k * (max 0 (inner (fun j => 2 * inner (dir (N g)) (dir (V g)) * dir (N g) j - dir (V g) j) (toLight l g)))
          ^ size g else 0) ?_, zero_add, sum_filter_ite, List.filter_filter]
  · unfold Spec.phong
    congr 2
    apply List.filter_congr
    intro l _
    cases l.ambient <;> simp
  · intro l s
    unfold phongBody
    obtain ⟨i1, i2, i3⟩ := illum_at N l rs s.env g h
    simp only [i1, i2]
    by_cases hc : 0 ≤ inner (toLight l g) (N g)
    · rw [if_pos (i3.mpr hc), if_pos (by simpa using hc)]
      congr 4
      unfold phongR reflect
      rw [unit_eq, unit_eq, unit_eq]
      unfold inner dot toLight
      ring_nf
    · rw [if_neg (fun h => hc (i3.mp h)), if_neg (by simpa using hc)]
      simp

open Classical in
example : Lights.phong true [sample false none] (fun _ => ![0, 0, 1]) (fun _ => ![0, 0, 1]) (fun _ => 3) (fun _ => true)
    ⟨fun _ => 0, fun _ => 0, fun _ => false⟩ 0 1 = 1 := by
  rw [C103_phong _ _ _ _ _ _ _ _ rfl (by norm_num)]
  unfold Spec.phong
  simp [sample, inner, toLight, dir, len]
  norm_num

/-- If lighting is turned off the result is black. -/
theorem C103_off (lights : List Light) (N V : Nat → Vec) (x : Nat → ℝ) (rs : Nat → Bool) (e : Env) :
    Lights.diffuse false lights N rs e = 0 ∧ Lights.specular false lights N V x rs e = 0 ∧
      Lights.phong false lights N V x rs e = 0 := by
  refine ⟨?_, ?_, ?_⟩
  · unfold Lights.diffuse; rw [C103_visits]; rfl
  · unfold Lights.specular; rw [C103_visits]; rfl
  · unfold Lights.phong; rw [C103_visits]; rfl

open Classical in
example : Lights.diffuse true [sample true none, sample false none, sample false (some 0)] (fun _ => ![0, 0, 1]) (fun _ => true)
    ⟨fun _ => 0, fun _ => 0, fun _ => false⟩ 0 1 = 2 := by
  rw [C103_diffuse_partial _ _ _ _ _ _ rfl (Or.inr (by simp [sample, counts]))]
  unfold Spec.diffuse
  simp [sample, counts, inner, toLight, dir, len]
  norm_num

open Classical in
/-- A light that does not set `__nondiffuse` is left out after one that does. -/
theorem C103_diffuse_violated : ∃ (lights : List Light) (N : Nat → Vec),
    Lights.diffuse true lights N (fun _ => true) ⟨fun _ => 0, fun _ => 0, fun _ => false⟩ 0 0 = 0 ∧
      Spec.diffuse lights (N 0) 0 0 = 1 := by
  refine ⟨[sample false (some 1), sample false none], fun _ => ![0, 0, 1], ?_, ?_⟩
  · unfold Lights.diffuse
    rw [C103_visits, if_pos rfl]
    simp [sample, diffuseBody, readVar]
  · unfold Spec.diffuse
    simp [sample, counts, inner, toLight, dir, len]

open Classical in
/-- A light that does not set `__nonspecular` is left out after one that does. -/
theorem C103_specular_violated : ∃ (lights : List Light) (N V : Nat → Vec),
    Lights.specular true lights N V (fun _ => 1) (fun _ => true) ⟨fun _ => 0, fun _ => 0, fun _ => false⟩ 0 0 = 0 ∧
      Spec.specular lights (N 0) (V 0) 1 0 0 = 1 := by
  refine ⟨[sample false (some 1), sample false none], fun _ => ![0, 0, 1], fun _ => ![0, 0, 1], ?_, ?_⟩
  · unfold Lights.specular
    rw [C103_visits, if_pos rfl]
    simp [sample, specularBody, readVar]
  · unfold Spec.specular
    simp [sample, counts, inner, toLight, dir, len]

/-- A category that is asked for is found if it is the first or the last of the names of a light, and only then. -/
theorem C103_categories_partial (c s : List Char) (h0 : c ≠ []) (h1 : c.head? ≠ some '-') (hc : ',' ∉ c) :
    exec c (some s) = true ↔ IsFirst c s ∨ IsLast c s := by
  unfold exec
  rw [if_neg h0]
  simp only [h1, decide_false, Bool.false_eq_true, if_false]
  rw [search]
  rcases findComma_spec s 0 with ⟨g1, g2⟩ | ⟨tok, rest, g1, g2, g3⟩
  · rw [g1]
    rw [List.drop_zero] at g2
    simp only [substr, and_true, List.drop_zero]
    by_cases he : c = s
    · rw [if_pos he]
      simp [IsFirst, he]
    · rw [if_neg he]
      simp only [Bool.false_eq_true, false_iff]
      rintro ((h | ⟨r, h⟩) | (h | ⟨r, h⟩))
      · exact he h.symm
      · exact g2 (by rw [h]; simp)
      · exact he h.symm
      · exact g2 (by rw [h]; simp)
  · rw [g3]
    rw [List.drop_zero] at g1
    have e0 : substr s 0 (some (0 + tok.length)) = tok := by simp [substr, g1]
    rw [e0]
    have hf : IsFirst c s ↔ c = tok := by
      rw [g1]
      constructor
      · rintro (h | ⟨r, h⟩)
        · exact absurd (by rw [← h]; simp) hc
        · rcases List.append_eq_append_iff.mp h with ⟨a, h1, h2⟩ | ⟨a, h1, h2⟩
          · cases a with
            | nil => simpa using h1
            | cons x a =>
              simp only [List.cons_append, List.cons.injEq] at h2
              exact absurd (by rw [h1, ← h2.1]; simp) hc
          · cases a with
            | nil => simpa using h1.symm
            | cons x a =>
              simp only [List.cons_append, List.cons.injEq] at h2
              exact absurd (by rw [h1, ← h2.1]; simp) g2
      · rintro rfl
        exact Or.inr ⟨rest, rfl⟩
    rw [hf]
    by_cases he : c = tok
    · simp [he]
    · simp only [he, false_and, if_false, false_or]
      have hlen : s.length = tok.length + 1 + rest.length := by rw [g1]; simp; omega
      rw [search_later c s hc _ _ (by omega) (by omega) (by omega)]
      have : s.drop (0 + tok.length + 1) = rest := by
        rw [g1]
        simp
      rw [this, g1, isLast_cons hc]

example : exec "key".toList (some "fill,key".toList) = true ∧ exec "key".toList (some "fill,keys".toList) = false := by
  decide +kernel

/-- A category between others is not found. -/
theorem C103_categories_violated : ∃ c s : List Char, ',' ∉ c ∧ IsName c s ∧ exec c (some s) = false :=
  ⟨"b".toList, "a,b,c".toList, by decide, Or.inr (Or.inr ⟨"a".toList, "c".toList, by decide⟩), by decide +kernel⟩

/-- Lights without categories are taken for every category. A category to be left out leaves out every light that has
categories. -/
theorem C103_uncategorised (c s : List Char) : exec c none = true ∧ exec [] (some s) = true ∧ exec ('-' :: c) (some s) = false := by
  refine ⟨?_, rfl, ?_⟩
  · unfold exec
    split_ifs <;> rfl
  · unfold exec
    rw [if_neg (by simp)]
    exact search_exclude _ _ _ _

/-- A light of another category is left out when one category is to be left out. -/
theorem C103_exclusion_violated : ∃ c s : List Char, ¬ IsName c s ∧ exec ('-' :: c) (some s) = false := by
  refine ⟨['a'], ['b'], ?_, (C103_uncategorised _ _).2.2⟩
  rintro ((h | ⟨r, h⟩) | (h | ⟨r, h⟩) | ⟨p, r, h⟩)
  · exact absurd h (by decide)
  · simp at h
  · exact absurd h (by decide)
  · have := congrArg List.length h
    simp at this
  · have := congrArg List.length h
    simp at this
    omega

/-- In the first `illuminate` statement of a light, `L` goes from the light to the surface; within the cone (for an axis of
length one) the statement runs and the colour is kept, outside the colour is black. -/
theorem C103_illuminate_partial (Ps P : Nat → Vec) (axis : Nat → Vec) (angle : Nat → ℝ) (rs : Nat → Bool) (e : LightEnv)
    (g : Nat) (hc : e.count = 0) (hg : rs g = true) (hax : len (axis g) = 1) (h0 : 0 ≤ angle g) (h1 : angle g ≤ Real.pi) :
    let r := illuminate Ps P (some axis) (some angle) rs e
    let d := fun k => Ps g k - P g k
    (r.L g = d) ∧ (r.cur g = true ↔ Real.cos (angle g) ≤ inner (dir d) (axis g)) ∧
      (Real.cos (angle g) ≤ inner (dir d) (axis g) → r.Cl g = e.Cl g) ∧
      (inner (dir d) (axis g) < Real.cos (angle g) → r.Cl g = 0) := by
  intro r d
  have hr : r = illuminate Ps P (some axis) (some angle) rs e := rfl
  clear_value r
  unfold illuminate at hr
  rw [if_neg (by omega)] at hr
  subst hr
  have hb := inner_bound _ _ (len_dir d) hax
  have ho := outside_iff d (axis g) (angle g) h0 h1 (Or.inl (by rw [unit_eq]; exact hb))
  refine ⟨by simp [hg, d], ?_, fun h => ?_, fun h => ?_⟩
  · simp only [hg, if_true, Option.map_some, Option.getD_some, Bool.not_eq_true', decide_eq_false_iff_not]
    rw [ho, not_lt]
  · have : ¬ outside d (axis g) (angle g) := by rw [ho, not_lt]; exact h
    simp only [Option.map_some, Option.getD_some]
    rw [if_neg (fun h => this h.2)]
  · have : outside d (axis g) (angle g) := ho.mpr h
    simp only [Option.map_some, Option.getD_some]
    rw [if_pos ⟨hg, this⟩]

/-- Without axis and angle an `illuminate` statement runs everywhere. -/
theorem C103_pointlight (Ps P : Nat → Vec) (rs : Nat → Bool) (e : LightEnv) (g : Nat) (hc : e.count = 0) (hg : rs g = true) :
    let r := illuminate Ps P none none rs e
    (r.L g = fun k => Ps g k - P g k) ∧ r.cur g = true ∧ r.Cl g = e.Cl g := by
  intro r
  have hr : r = illuminate Ps P none none rs e := rfl
  clear_value r
  unfold illuminate at hr
  rw [if_neg (by omega)] at hr
  subst hr
  have : ¬ outside (fun k => Ps g k - P g k) ![0, 1, 0] Real.pi := by
    unfold outside
    simp only [gt_iff_lt, not_lt]
    exact Real.arccos_le_pi _
  simp [hg, this]

/-- `solar` gives its axis as `L`, or against the normal of the surface without an axis, and runs everywhere. -/
theorem C103_solar (Ns : Nat → Vec) (axis : Nat → Vec) (rs : Nat → Bool) (e : LightEnv) (g : Nat) (hc : e.count = 0)
    (hg : rs g = true) :
    (solar Ns (some axis) rs e).L g = axis g ∧ (solar Ns none rs e).L g = (fun k => -Ns g k) ∧
      (solar Ns (some axis) rs e).cur g = true ∧ (solar Ns (some axis) rs e).Cl = e.Cl := by
  unfold solar
  simp [hc, hg]

/-- Only the first `illuminate` or `solar` statement of a light does anything. -/
theorem C103_first (Ps P Ns : Nat → Vec) (axis : Option (Nat → Vec)) (angle : Option (Nat → ℝ)) (rs : Nat → Bool) (e : LightEnv) :
    (illuminate Ps P axis angle rs e).count = e.count + 1 ∧ (solar Ns axis rs e).count = e.count + 1 ∧
      (0 < e.count → (illuminate Ps P axis angle rs e).toEnv = e.toEnv ∧ (solar Ns axis rs e).toEnv = e.toEnv) := by
  unfold illuminate solar
  refine ⟨?_, ?_, fun h => ?_⟩
  · split_ifs <;> rfl
  · split_ifs <;> rfl
  · rw [if_pos h, if_pos h]
    exact ⟨rfl, rfl⟩

example : (illuminate (fun _ => ![0, 0, 2]) (fun _ => ![0, 0, 1]) none none (fun _ => true)
    ⟨⟨fun _ => 0, fun _ => 1, fun _ => false⟩, 0⟩).L 0 = ![0, 0, 1] := by
  rw [(C103_pointlight _ _ _ _ 0 rfl rfl).1]
  funext k; fin_cases k <;> norm_num

/-- `calculatenormal` stands on both directions of the grid and is one unit long, if they are not parallel; it is on the side
of their product exactly if the orientation is that of the coordinate system. -/
theorem C103_calculatenormal (CSO O : Bool) (du dv : Vec) :
    let n := calculatenormal CSO O du dv
    let c : Vec := ![du 1 * dv 2 - du 2 * dv 1, du 2 * dv 0 - du 0 * dv 2, du 0 * dv 1 - du 1 * dv 0]
    inner n du = 0 ∧ inner n dv = 0 ∧ (c ≠ 0 → len n = 1 ∧ (0 < inner n c ↔ O = CSO)) := by
  intro n c
  have hn : n = fun k => dir c k * normalSign CSO O := by
    show calculatenormal CSO O du dv = _
    unfold calculatenormal
    simp only [unit_eq]
    rfl
  have hs : normalSign CSO O * normalSign CSO O = 1 := by
    cases CSO <;> cases O <;> simp [normalSign]
  rw [hn]
  refine ⟨?_, ?_, fun hc => ?_⟩
  · show dir c 0 * _ * du 0 + dir c 1 * _ * du 1 + dir c 2 * _ * du 2 = 0
    simp only [dir, c, Matrix.cons_val_zero, Matrix.cons_val_one, Matrix.cons_val]
    ring
  · show dir c 0 * _ * dv 0 + dir c 1 * _ * dv 1 + dir c 2 * _ * dv 2 = 0
    simp only [dir, c, Matrix.cons_val_zero, Matrix.cons_val_one, Matrix.cons_val]
    ring
  · have p : 0 < c 0 * c 0 + c 1 * c 1 + c 2 * c 2 := by
      rcases lt_or_eq_of_le (show 0 ≤ c 0 * c 0 + c 1 * c 1 + c 2 * c 2 by
        nlinarith [mul_self_nonneg (c 0), mul_self_nonneg (c 1), mul_self_nonneg (c 2)]) with h | h
      · exact h
      · exfalso
        apply hc
        funext k
        have a0 : c 0 = 0 := by nlinarith [mul_self_nonneg (c 0), mul_self_nonneg (c 1), mul_self_nonneg (c 2)]
        have a1 : c 1 = 0 := by nlinarith [mul_self_nonneg (c 0), mul_self_nonneg (c 1), mul_self_nonneg (c 2)]
        have a2 : c 2 = 0 := by nlinarith [mul_self_nonneg (c 0), mul_self_nonneg (c 1), mul_self_nonneg (c 2)]
        fin_cases k
        · exact a0
        · exact a1
        · exact a2
    have lp : 0 < len c := Real.sqrt_pos.mpr p
    have e : len c * len c = c 0 * c 0 + c 1 * c 1 + c 2 * c 2 := Real.mul_self_sqrt p.le
    generalize hsg : normalSign CSO O = sg at hs
    constructor
    · unfold len
      have : dir c 0 * sg * (dir c 0 * sg) + dir c 1 * sg * (dir c 1 * sg) + dir c 2 * sg * (dir c 2 * sg) = 1 := by
        have : dir c 0 * sg * (dir c 0 * sg) + dir c 1 * sg * (dir c 1 * sg) + dir c 2 * sg * (dir c 2 * sg)
            = (sg * sg) * ((c 0 * c 0 + c 1 * c 1 + c 2 * c 2) / (len c * len c)) := by
          unfold dir; field_simp
        rw [this, hs, ← e, div_self (by positivity), one_mul]
      rw [this, Real.sqrt_one]
    · have : inner (fun k => dir c k * sg) c = sg * len c := by
        have h1 : inner (fun k => dir c k * sg) c = sg * ((c 0 * c 0 + c 1 * c 1 + c 2 * c 2) / len c) := by
          unfold inner dir; field_simp
        rw [h1, ← e, mul_self_div_self]
      rw [this, ← hsg]
      cases CSO <;> cases O <;> simp [normalSign, lp, lp.le]

example : calculatenormal true true ![1, 0, 0] ![0, 1, 0] 2 = 1 ∧ calculatenormal true false ![1, 0, 0] ![0, 1, 0] 2 = -1 := by
  unfold calculatenormal
  simp only [unit_eq]
  constructor <;> simp [dir, len, normalSign]

end Verif.Shader.Lights
