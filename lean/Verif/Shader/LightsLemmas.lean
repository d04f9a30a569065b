import Verif.Shader.Lights

/-!
Lemmas about Loops over lights
-/

namespace Verif.Shader.Lights

open Verif.Shader.Arith (dot unit clamp)
open Verif.Shader.Optics (Vec reflect)

namespace Spec

/-- The length of a vector. -/
noncomputable def len (v : Vec) : ℝ := Real.sqrt (v 0 * v 0 + v 1 * v 1 + v 2 * v 2)

/-- The scalar product. -/
def inner (a b : Vec) : ℝ := a 0 * b 0 + a 1 * b 1 + a 2 * b 2

/-- A vector made one unit long. -/
noncomputable def dir (v : Vec) : Vec := fun k => v k / len v

/-- The direction from a point to a light. -/
noncomputable def toLight (l : Light) (g : Nat) : Vec := dir fun k => -l.L g k

/-- Whether a light has said that it does not count. -/
def counts (said : Option ℝ) : Prop := said = none ∨ said = some 0

open Classical in
/-- Lambert's law: each light that is not ambient and counts adds its colour times the cosine of the angle, if positive. -/
noncomputable def diffuse (lights : List Light) (n : Vec) (g : Nat) (k : Fin 3) : ℝ :=
  ((lights.filter fun l => decide (l.ambient = false ∧ counts l.nondiffuse)).map
    fun l => l.Cl g k * max 0 (inner (toLight l g) n)).sum

open Classical in
/-- Each light that is not ambient, counts and is in front of the surface adds its colour times a power of the cosine of the
angle between the normal and the vector half way between the light and the eye. -/
noncomputable def specular (lights : List Light) (n v : Vec) (rough : ℝ) (g : Nat) (k : Fin 3) : ℝ :=
  ((lights.filter fun l => decide (l.ambient = false ∧ counts l.nonspecular ∧ 0 ≤ inner (toLight l g) n)).map
    fun l => l.Cl g k * (max 0 (inner n (dir fun j => toLight l g j + v j))) ^ (8 / rough)).sum

open Classical in
/-- Each light that is not ambient and is in front of the surface adds its colour times a power of the cosine of the angle
between the light and the mirrored direction of the eye. -/
noncomputable def phong (lights : List Light) (n v : Vec) (size : ℝ) (g : Nat) (k : Fin 3) : ℝ :=
  ((lights.filter fun l => decide (l.ambient = false ∧ 0 ≤ inner (toLight l g) n)).map
    fun l => l.Cl g k * (max 0 (inner (fun j => 2 * inner (dir n) (dir v) * dir n j - dir v j) (toLight l g))) ^ size).sum

/-- The first of the names between commas. -/
def IsFirst (c s : List Char) : Prop := s = c ∨ ∃ r, s = c ++ ',' :: r

/-- The last of the names between commas. -/
def IsLast (c s : List Char) : Prop := s = c ∨ ∃ r, s = r ++ ',' :: c

/-- One of the names between commas. -/
def IsName (c s : List Char) : Prop := IsFirst c s ∨ IsLast c s ∨ ∃ p r, s = p ++ ',' :: (c ++ ',' :: r)

end Spec

open Spec

/-! ## The loop -/

theorem skip_spec (lights : List Light) (li : Nat) (h : li ≤ lights.length) :
    li ≤ skip lights li ∧ skip lights li ≤ lights.length ∧
      (lights.drop li).filter (fun l => !l.ambient) = (lights.drop (skip lights li)).filter (fun l => !l.ambient) ∧
      ∀ g : skip lights li < lights.length, (lights[skip lights li]).ambient = false := by
  induction hn : lights.length - li generalizing li with
  | zero =>
    have : ¬ li < lights.length := by omega
    rw [skip, dif_neg this]
    exact ⟨le_rfl, h, rfl, fun g => absurd g this⟩
  | succ n ih =>
    have hl : li < lights.length := by omega
    rw [skip, dif_pos hl]
    by_cases ha : lights[li].ambient = true
    · rw [if_pos ha]
      obtain ⟨h1, h2, h3, h4⟩ := ih (li + 1) (by omega) (by omega)
      refine ⟨by omega, h2, ?_, h4⟩
      rw [← h3, List.drop_eq_getElem_cons hl, List.filter_cons]
      simp [ha]
    · rw [if_neg ha]
      exact ⟨le_rfl, h, rfl, fun _ => by simpa using ha⟩

theorem turns_eq {S : Type} (lights : List Light) (body : Light → S → S) (fuel li : Nat) (s : S)
    (hl : li < lights.length) (ha : lights[li].ambient = false) (hf : lights.length ≤ fuel + li) :
    turns true lights body fuel li s = ((lights.drop li).filter fun l => !l.ambient).foldl (fun s l => body l s) s := by
  induction fuel generalizing li s with
  | zero => omega
  | succ k ih =>
    rw [turns, dif_pos hl, List.drop_eq_getElem_cons hl, List.filter_cons]
    simp only [ha, Bool.not_false, if_true, List.foldl_cons]
    obtain ⟨h1, h2, h3, h4⟩ := skip_spec lights (li + 1) (by omega)
    rw [h3, advance]
    simp only [Bool.not_true, Bool.false_eq_true, if_false]
    by_cases g : skip lights (li + 1) < lights.length
    · simp only [if_pos g]
      exact ih _ _ g (h4 g) (by omega)
    · simp only [if_neg g]
      rw [List.drop_eq_nil_of_le (by omega)]
      rfl

/-- A light for examples. -/
def sample (amb : Bool) (non : Option ℝ) : Light := ⟨amb, none, non, non, fun _ => ![0, 0, -1], fun _ _ => 1⟩

theorem ambient_fold (lights : List Light) (rs : Nat → Bool) (r : Nat → Vec) (g : Nat) (k : Fin 3) :
    lights.foldl (fun res l => if l.ambient then fun g => if rs g then fun k => res g k + l.Cl g k else res g else res)
      r g k = r g k + if rs g then ((lights.filter (·.ambient)).map fun l => l.Cl g k).sum else 0 := by
  induction lights generalizing r with
  | nil => simp
  | cons l ls ih =>
    rw [List.foldl_cons, ih]
    by_cases ha : l.ambient = true <;> by_cases hg : rs g = true <;> simp [ha, hg, add_assoc]

/-! ## Cones -/

theorem unit_eq (v : Vec) : unit v = dir v := by
  unfold unit dir len dot
  by_cases h : Real.sqrt (v 0 * v 0 + v 1 * v 1 + v 2 * v 2) = 0
  · simp only [h, ne_eq, not_true_eq_false, if_false, div_zero]
    have h0 : v 0 * v 0 + v 1 * v 1 + v 2 * v 2 ≤ 0 := Real.sqrt_eq_zero'.mp h
    have a0 : v 0 = 0 := by nlinarith [mul_self_nonneg (v 0), mul_self_nonneg (v 1), mul_self_nonneg (v 2)]
    have a1 : v 1 = 0 := by nlinarith [mul_self_nonneg (v 0), mul_self_nonneg (v 1), mul_self_nonneg (v 2)]
    have a2 : v 2 = 0 := by nlinarith [mul_self_nonneg (v 0), mul_self_nonneg (v 1), mul_self_nonneg (v 2)]
    funext k; fin_cases k
    · exact a0
    · exact a1
    · exact a2
  · simp only [h, ne_eq, not_false_eq_true, if_true]

theorem clamp_mem (x : ℝ) : clamp x (-1) 1 ∈ Set.Icc (-1 : ℝ) 1 := by
  unfold clamp
  split_ifs <;> constructor <;> linarith

theorem outside_iff (d axis : Vec) (angle : ℝ) (h0 : 0 ≤ angle) (h1 : angle ≤ Real.pi)
    (hd : -1 ≤ dot (unit d) axis ∨ angle < Real.pi) :
    outside d axis angle ↔ inner (dir d) axis < Real.cos angle := by
  have e : inner (dir d) axis = dot (unit d) axis := by rw [unit_eq]; rfl
  rw [e]
  unfold outside
  generalize hx : dot (unit d) axis = x at hd ⊢
  simp only [gt_iff_lt]
  have ha : angle = Real.arccos (Real.cos angle) := (Real.arccos_cos h0 h1).symm
  have key : angle < Real.arccos (clamp x (-1) 1) ↔ clamp x (-1) 1 < Real.cos angle := by
    conv_lhs => rw [ha]
    exact Real.strictAntiOn_arccos.lt_iff_gt ⟨Real.neg_one_le_cos _, Real.cos_le_one _⟩ (clamp_mem x)
  rw [key]
  have c1 := Real.cos_le_one angle
  have c0 := Real.neg_one_le_cos angle
  unfold clamp
  split_ifs with g1 g2
  · constructor
    · intro h; linarith
    · intro _
      rcases hd with hd | hd
      · linarith
      · have := Real.strictAntiOn_cos ⟨h0, h1⟩ ⟨Real.pi_pos.le, le_rfl⟩ hd
        rwa [Real.cos_pi] at this
  · constructor <;> intro h <;> linarith
  · rfl

theorem outside_half (d n : Vec) : outside d n (Real.pi / 2) ↔ inner (dir d) n < 0 := by
  have := Real.pi_pos
  rw [outside_iff d n _ (by linarith) (by linarith) (Or.inr (by linarith)), Real.cos_pi_div_two]

theorem inner_bound (a b : Vec) (ha : len a ≤ 1) (hb : len b = 1) : -1 ≤ inner a b := by
  have sb : b 0 * b 0 + b 1 * b 1 + b 2 * b 2 = 1 := by
    have h := Real.sq_sqrt (show 0 ≤ b 0 * b 0 + b 1 * b 1 + b 2 * b 2 by nlinarith [mul_self_nonneg (b 0), mul_self_nonneg (b 1), mul_self_nonneg (b 2)])
    unfold len at hb
    rw [hb] at h
    linarith
  have sa : a 0 * a 0 + a 1 * a 1 + a 2 * a 2 ≤ 1 := by
    unfold len at ha
    have := Real.sqrt_le_one.mp ha
    linarith
  unfold inner
  nlinarith [mul_self_nonneg (a 0 + b 0), mul_self_nonneg (a 1 + b 1), mul_self_nonneg (a 2 + b 2)]

theorem len_dir (v : Vec) : len (dir v) ≤ 1 := by
  unfold len
  apply Real.sqrt_le_one.mpr
  unfold dir
  by_cases h : len v = 0
  · simp [h]
  · have p : 0 ≤ v 0 * v 0 + v 1 * v 1 + v 2 * v 2 := by
      nlinarith [mul_self_nonneg (v 0), mul_self_nonneg (v 1), mul_self_nonneg (v 2)]
    have e : len v * len v = v 0 * v 0 + v 1 * v 1 + v 2 * v 2 := Real.mul_self_sqrt p
    have : v 0 / len v * (v 0 / len v) + v 1 / len v * (v 1 / len v) + v 2 / len v * (v 2 / len v)
        = (v 0 * v 0 + v 1 * v 1 + v 2 * v 2) / (len v * len v) := by field_simp
    rw [this, ← e, div_self (mul_ne_zero h h)]

/-! ## Sums of lights -/

theorem illum_at (N : Nat → Vec) (l : Light) (rs : Nat → Bool) (e : Env) (g : Nat) (h : rs g = true) :
    let r := illuminance [] (some N) (some fun _ => Real.pi / 2) l rs e
    (r.L g = fun k => -l.L g k) ∧ r.Cl g = l.Cl g ∧ (r.cur g = true ↔ 0 ≤ inner (toLight l g) (N g)) := by
  intro r
  have hr : r = illuminance [] (some N) (some fun _ => Real.pi / 2) l rs e := rfl
  clear_value r
  unfold illuminance at hr
  rw [if_pos (by rfl)] at hr
  subst hr
  refine ⟨by simp [h], by simp [h], ?_⟩
  have := outside_half (fun k => -l.L g k) (N g)
  simp only [h, if_true, Option.map_some, Option.getD_some, Bool.not_eq_true', decide_eq_false_iff_not]
  rw [this, not_lt]
  rfl

/-- Hypothesis on the variables of the lights: either every light has the variable or no light says that it does not count. -/
def Said (f : Light → Option ℝ) (lights : List Light) : Prop :=
  (∀ l ∈ lights, f l ≠ none) ∨ ∀ l ∈ lights, counts (f l)

open Classical in
theorem fold_sum (f : Light → Option ℝ) (body : Light → St → St) (g : Nat) (k : Fin 3) (c : Light → ℝ)
    (skipped : ∀ l s, readVar (f l) s.non ≠ 0 → body l s = { s with non := readVar (f l) s.non })
    (taken : ∀ l s, readVar (f l) s.non = 0 → (body l s).non = 0 ∧ (body l s).res g k = s.res g k + c l)
    (ls : List Light) (s : St) (hs : (∀ l ∈ ls, f l ≠ none) ∨ (s.non = 0 ∧ ∀ l ∈ ls, counts (f l))) :
    (ls.foldl (fun s l => body l s) s).res g k
      = s.res g k + ((ls.filter fun l => decide (counts (f l))).map c).sum := by
  induction ls generalizing s with
  | nil => simp
  | cons l ls ih =>
    rw [List.foldl_cons]
    have next : ∀ s' : St, (readVar (f l) s.non = 0 → s'.non = 0) →
        (∀ l ∈ ls, f l ≠ none) ∨ (s'.non = 0 ∧ ∀ l ∈ ls, counts (f l)) := by
      intro s' h'
      rcases hs with hs | ⟨h0, hs⟩
      · exact Or.inl fun l h => hs l (List.mem_cons_of_mem _ h)
      · refine Or.inr ⟨h' ?_, fun l h => hs l (List.mem_cons_of_mem _ h)⟩
        rcases hs l List.mem_cons_self with h | h <;> rw [h] <;> simp [readVar, h0]
    have hc : counts (f l) ↔ readVar (f l) s.non = 0 := by
      rcases hs with hs | ⟨h0, hs⟩
      · have := hs l List.mem_cons_self
        cases hf : f l with
        | none => exact absurd hf this
        | some x => simp [counts, readVar]
      · have := hs l List.mem_cons_self
        refine ⟨fun _ => ?_, fun _ => this⟩
        rcases this with h | h <;> rw [h] <;> simp [readVar, h0]
    by_cases h : readVar (f l) s.non = 0
    · obtain ⟨t1, t2⟩ := taken l s h
      rw [ih _ (next _ fun _ => t1), t2, List.filter_cons, if_pos (by simpa using hc.mpr h), List.map_cons, List.sum_cons,
        add_assoc]
    · rw [skipped l s h, ih _ (next _ fun h' => absurd h' h), List.filter_cons, if_neg (by simpa using fun h' => h (hc.mp h'))]

theorem said_filter {f : Light → Option ℝ} {lights : List Light} (h : Said f lights) :
    (∀ l ∈ lights.filter (fun l => !l.ambient), f l ≠ none) ∨
      ((0 : ℝ) = 0 ∧ ∀ l ∈ lights.filter (fun l => !l.ambient), counts (f l)) := by
  rcases h with h | h
  · exact Or.inl fun l hl => h l (List.mem_of_mem_filter hl)
  · exact Or.inr ⟨rfl, fun l hl => h l (List.mem_of_mem_filter hl)⟩

/-! ## Categories -/

theorem findComma_spec (s : List Char) (pos : Nat) :
    (findComma s pos = none ∧ ',' ∉ s.drop pos) ∨
      ∃ tok rest, s.drop pos = tok ++ ',' :: rest ∧ ',' ∉ tok ∧ findComma s pos = some (pos + tok.length) := by
  induction hn : s.length - pos generalizing pos with
  | zero =>
    left
    have : ¬ pos < s.length := by omega
    rw [findComma, dif_neg this, List.drop_eq_nil_of_le (by omega)]
    simp
  | succ n ih =>
    have hl : pos < s.length := by omega
    rw [findComma, dif_pos hl, List.drop_eq_getElem_cons hl]
    by_cases hc : s[pos] = ','
    · right
      rw [if_pos hc]
      exact ⟨[], s.drop (pos + 1), by rw [hc]; rfl, by simp, by simp⟩
    · rw [if_neg hc]
      rcases ih (pos + 1) (by omega) with ⟨h1, h2⟩ | ⟨tok, rest, h1, h2, h3⟩
      · left
        exact ⟨h1, fun h => (List.mem_cons.mp h).elim (fun h => hc h.symm) h2⟩
      · right
        refine ⟨s[pos] :: tok, rest, by rw [h1]; rfl, fun h => (List.mem_cons.mp h).elim (fun h => hc h.symm) h2, ?_⟩
        rw [h3, List.length_cons]
        congr 1
        omega

theorem isLast_cons {c tok rest : List Char} (hc : ',' ∉ c) :
    IsLast c (tok ++ ',' :: rest) ↔ IsLast c rest := by
  constructor
  · rintro (h | ⟨r, h⟩)
    · exact absurd (by rw [← h]; simp) hc
    · rcases List.append_eq_append_iff.mp h with ⟨a, h1, h2⟩ | ⟨a, h1, h2⟩
      · cases a with
        | nil => exact Or.inl (by simpa using h2)
        | cons x a =>
          right
          simp only [List.cons_append, List.cons.injEq] at h2
          exact ⟨a, h2.2⟩
      · cases a with
        | nil => exact Or.inl (by simpa using h2.symm)
        | cons x a =>
          simp only [List.cons_append, List.cons.injEq] at h2
          exact absurd (by rw [h2.2]; simp) hc
  · rintro (h | ⟨r, h⟩)
    · exact Or.inr ⟨tok, by rw [h]⟩
    · exact Or.inr ⟨tok ++ ',' :: r, by rw [h]; simp⟩

theorem search_later (c s : List Char) (hc : ',' ∉ c) (fuel pos : Nat) (hp : 0 < pos) (hl : pos ≤ s.length)
    (hf : s.length < fuel + pos) : search c s false fuel pos = true ↔ IsLast c (s.drop pos) := by
  induction fuel generalizing pos with
  | zero => omega
  | succ n ih =>
    rw [search]
    rcases findComma_spec s pos with ⟨h1, h2⟩ | ⟨tok, rest, h1, h2, h3⟩
    · rw [h1]
      simp only [substr, and_true]
      by_cases he : c = s.drop pos
      · rw [if_pos he]
        simp [IsLast, ← he]
      · rw [if_neg he]
        simp only [Bool.false_eq_true, false_iff]
        rintro (h | ⟨r, h⟩)
        · exact he h.symm
        · exact h2 (by rw [h]; simp)
    · rw [h3]
      have hlen : (s.drop pos).length = tok.length + 1 + rest.length := by rw [h1]; simp; omega
      rw [List.length_drop] at hlen
      have hne : ¬ (c = substr s pos (some (pos + tok.length)) ∧ false = false) := by
        rintro ⟨h, -⟩
        apply hc
        rw [h, substr, h1, List.take_append, List.mem_append]
        right
        obtain ⟨m, hm⟩ : ∃ m, pos + tok.length - tok.length = m + 1 := ⟨pos - 1, by omega⟩
        rw [hm, List.take_succ_cons]
        simp
      rw [if_neg hne]
      show search c s false n (pos + tok.length + 1) = true ↔ _
      rw [ih (pos + tok.length + 1) (by omega) (by omega) (by omega), h1, isLast_cons hc]
      have : s.drop (pos + tok.length + 1) = rest := by
        rw [show pos + tok.length + 1 = pos + (tok.length + 1) by omega, ← List.drop_drop, h1]
        simp
      rw [this]

theorem search_exclude (c s : List Char) (fuel pos : Nat) : search c s true fuel pos = false := by
  induction fuel generalizing pos with
  | zero => rfl
  | succ n ih =>
    rw [search]
    simp only [Bool.true_eq_false, and_false, if_false]
    cases findComma s pos with
    | none => rfl
    | some e => exact ih _

/-! ## Shaders of lights -/

/-! ## Normals of grids -/

theorem sum_filter_ite (ls : List Light) (p : Light → Bool) (c : Light → ℝ) :
    (ls.map fun l => if p l then c l else 0).sum = ((ls.filter p).map c).sum := by
  induction ls with
  | nil => rfl
  | cons l ls ih => by_cases h : p l = true <;> simp [h, ih]

theorem fold_phong (body : Light → St → St) (g : Nat) (k : Fin 3) (c : Light → ℝ)
    (taken : ∀ l s, (body l s).res g k = s.res g k + c l) (ls : List Light) (s : St) :
    (ls.foldl (fun s l => body l s) s).res g k = s.res g k + (ls.map c).sum := by
  induction ls generalizing s with
  | nil => simp
  | cons l ls ih => rw [List.foldl_cons, ih, taken, List.map_cons, List.sum_cons, add_assoc]

end Verif.Shader.Lights
