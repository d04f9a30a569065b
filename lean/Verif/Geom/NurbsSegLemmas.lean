import Verif.Geom.NurbsClampLemmas
/-!
# Lemmas on NURBS: subdivision into segments
-/
namespace Verif.Geom.Nurbs
open Verif.Geom.BSpline Verif.Geom.Trim

set_option linter.unusedSectionVars false

variable {K : Type} [Field K] [LinearOrder K] [IsStrictOrderedRing K] {V : Type} [AddCommGroup V] [Module K V]

/-- The borders of `num` equal parts of the domain. Specification. -/
def border (c : Curve K V) (num j : Nat) : K := c.knots c.degree + (j : K) / (num : K) * (c.knots c.n - c.knots c.degree)

theorem border_lt (c : Curve K V) (hl : c.knots c.degree < c.knots c.n) (num i j : Nat) (hij : i < j) (hn : 0 < num) : border c num i < border c num j := by
  unfold border
  have hn' : (0 : K) < (num : K) := Nat.cast_pos.2 hn
  have : (i : K) / (num : K) < (j : K) / (num : K) := by
    rw [div_lt_div_iff_of_pos_right hn']
    exact_mod_cast hij
  have := mul_lt_mul_of_pos_right this (sub_pos.2 hl)
  linarith

theorem border_zero (c : Curve K V) (num : Nat) : border c num 0 = c.knots c.degree := by simp [border]

theorem border_num (c : Curve K V) (num : Nat) (hn : 0 < num) : border c num num = c.knots c.n := by
  unfold border
  have hn' : (num : K) ≠ 0 := Nat.cast_ne_zero.2 (by omega)
  rw [div_self hn']
  ring

/-- What holds after some cuts. -/
structure Cutted (c c' : Curve K V) (num m : Nat) (l : List Nat) : Prop where
  length : l.length = m
  wf : Wf c'
  simple : Simple c'
  order : c'.order = c.order
  grow : c.n ≤ c'.n
  first : c'.knots 0 = c.knots c.degree
  start : c'.knots c.degree = c.knots c.degree
  fin : c'.knots c'.n = c.knots c.n
  last : c'.knots (c'.n + c.degree) = c.knots c.n
  spline : ∀ u, c.knots c.degree ≤ u → u < c.knots c.n → c'.spline u = c.spline u
  lastPt : c'.pts (c'.n - 1) = c.pts (c.n - 1)
  at' : ∀ j e, l[j]? = some e → c.degree ≤ e ∧ e + c.order < c'.n ∧ (∀ i, i ≤ e → c'.knots i < border c num (j + 1)) ∧
    ∀ i, e < i → i ≤ e + c.order → c'.knots i = border c num (j + 1)

theorem cuts_spec (c : Curve K V) (h : Legal c) (hp : 1 ≤ c.degree) (num m : Nat) (hm : m < num) :
    ∃ l c', cuts num m c = some (l, c') ∧ Cutted c c' num m l := by
  have ho := h.wf.order
  have hd : c.order = c.degree + 1 := by unfold Curve.degree; omega
  obtain ⟨-, -, hlt⟩ := h.lt c
  induction m with
  | zero =>
    exact ⟨[], c, rfl, rfl, h.wf, h.simple, rfl, le_refl _, h.first, rfl, rfl, h.last.symm, fun _ _ _ => rfl, rfl, fun j e he => by simp at he⟩
  | succ m ih =>
    obtain ⟨l, c', ec, hc⟩ := ih (by omega)
    have hd' : c'.degree = c.degree := by unfold Curve.degree; rw [hc.order]
    have hx : ((m + 1 : Nat) : K) / (num : K) * (c'.knots c'.n - c'.knots (c'.order - 1)) + c'.knots (c'.order - 1) = border c num (m + 1) := by
      have : c'.order - 1 = c.degree := by rw [hc.order]; rfl
      rw [this, hc.start, hc.fin]
      unfold border
      ring
    have b1 : c.knots c.degree < border c num (m + 1) := by
      rw [← border_zero c num]
      exact border_lt c hlt num _ _ (by omega) (by omega)
    have b2 : border c num (m + 1) < c.knots c.n := by
      rw [← border_num c num (by omega)]
      exact border_lt c hlt num _ _ hm (by omega)
    obtain ⟨e, c'', ecut, hcut⟩ := cut_spec c' hc.wf hc.simple (by omega) (border c num (m + 1)) (by rw [hd', hc.start]; exact b1)
      (by rw [hc.fin]; exact b2)
    have hleft := hcut.left
    have hright := hcut.right
    have hgrow := hcut.grow
    have hord := hcut.order
    have hgrow' := hc.grow
    rw [hc.order] at hright hord
    rw [hd'] at hleft
    refine ⟨l ++ [e], c'', ?_, ?_, hcut.wf, hcut.simple, hord, by omega, ?_, ?_, ?_, ?_, fun u hu hu' => ?_, by rw [hcut.lastPt, hc.lastPt], fun j e' he' => ?_⟩
    · unfold cuts
      rw [ec, Option.bind_some]
      simp only
      rw [hx, ecut, Option.map_some]
    · rw [List.length_append, hc.length]; rfl
    · rw [(hcut.lo 0 (by omega)).1, hc.first]
    · have := hcut.start
      rw [hd', hc.start] at this
      exact this
    · rw [hcut.fin, hc.fin]
    · obtain ⟨g1, g2, -⟩ := hcut.hi (c''.n + c.degree) (by rw [hc.order]; omega) (by omega)
      rw [g2, ← hc.last]
      congr 1
      omega
    · rw [hcut.spline u (by rw [hd', hc.start]; exact hu) (by rw [hc.fin]; exact hu'), hc.spline u hu hu']
    · by_cases hj : j < m
      · rw [List.getElem?_append_left (by rw [hc.length]; exact hj)] at he'
        obtain ⟨a1, a2, a3, a4⟩ := hc.at' j e' he'
        have hle : e' + c.order ≤ e := by
          by_contra hcon
          have := hcut.above (e' + c.order) (by omega) (by omega)
          rw [a4 _ (by omega) (le_refl _)] at this
          exact absurd (border_lt c hlt num (j + 1) (m + 1) (by omega) (by omega)) (not_lt.2 this)
        refine ⟨a1, by omega, fun i hi => ?_, fun i i1 i2 => ?_⟩
        · rw [(hcut.lo i (by omega)).1]; exact a3 i hi
        · rw [(hcut.lo i (by omega)).1]; exact a4 i i1 i2
      · have hjm : j = m := by
          have := (List.getElem?_eq_some_iff.1 he').1
          rw [List.length_append, hc.length] at this
          simp at this
          omega
        subst hjm
        rw [List.getElem?_append_right (by rw [hc.length]), hc.length, Nat.sub_self] at he'
        simp at he'
        subst he'
        have hmid := hcut.mid
        rw [hc.order] at hmid
        refine ⟨hleft, by omega, fun i hi => ?_, fun i i1 i2 => hmid i i1 i2⟩
        rw [(hcut.lo i hi).1]
        exact (hcut.lo i hi).2

omit [Field K] [LinearOrder K] [IsStrictOrderedRing K] in
theorem ranges_get (l : List Nat) (off j e : Nat) (he : l[j]? = some e) :
    (ranges off l)[j]? = some (if j = 0 then off else l.getD (j - 1) 0 + 1, e) := by
  induction l generalizing off j with
  | nil => simp at he
  | cons a l ih =>
    unfold ranges
    cases j with
    | zero => simp at he; simp [he]
    | succ j =>
      rw [List.getElem?_cons_succ] at he ⊢
      rw [ih (a + 1) j he]
      cases j with
      | zero => simp
      | succ j => simp

theorem ranges_length (off : Nat) (l : List Nat) : (ranges off l).length = l.length := by
  induction l generalizing off with
  | nil => rfl
  | cons a l ih => unfold ranges; simp [ih]

/-- The parts. -/
theorem cuts_parts (c c' : Curve K V) (h : Legal c) (hp : 1 ≤ c.degree) (num : Nat) (hn : 0 < num) (l : List Nat) (hc : Cutted c c' num (num - 1) l) (j : Nat)
    (hj : j < num) : ∃ off fin, (ranges 0 (l ++ [c'.n - 1]))[j]? = some (off, fin) ∧ off + c.order ≤ fin + 1 ∧ fin < c'.n ∧
      c'.knots off = border c num j ∧ c'.knots (off + c.degree) = border c num j ∧ c'.knots (fin + 1) = border c num (j + 1) ∧
      c'.knots (fin + 1 + c.degree) = border c num (j + 1) := by
  have ho := h.wf.order
  have hpts := h.wf.pts
  have hd : c.order = c.degree + 1 := by unfold Curve.degree; omega
  have hg := hc.grow
  obtain ⟨-, -, hlt⟩ := h.lt c
  -- the end
  obtain ⟨fin, hfin, f1, f2, f3⟩ : ∃ fin, (l ++ [c'.n - 1])[j]? = some fin ∧ fin < c'.n ∧ c'.knots (fin + 1) = border c num (j + 1) ∧
      c'.knots (fin + 1 + c.degree) = border c num (j + 1) := by
    by_cases hl : j < num - 1
    · obtain ⟨e, he⟩ : ∃ e, l[j]? = some e := ⟨l[j]'(by rw [hc.length]; exact hl), List.getElem?_eq_getElem _⟩
      obtain ⟨a1, a2, a3, a4⟩ := hc.at' j e he
      refine ⟨e, ?_, by omega, a4 _ (by omega) (by omega), a4 _ (by omega) (by omega)⟩
      rw [List.getElem?_append_left (by rw [hc.length]; exact hl), he]
    · have hj' : j = num - 1 := by omega
      have e1 : c'.n - 1 + 1 = c'.n := by omega
      have e2 : j + 1 = num := by omega
      refine ⟨c'.n - 1, ?_, by omega, ?_, ?_⟩
      · rw [List.getElem?_append_right (by rw [hc.length]; omega), hc.length, hj', Nat.sub_self]
        rfl
      · rw [e1, hc.fin, e2, border_num c num hn]
      · rw [e1, hc.last, e2, border_num c num hn]
  have hr := ranges_get _ 0 j fin hfin
  obtain ⟨off, hoff, o1, o2, o3⟩ : ∃ off, off = (if j = 0 then 0 else (l ++ [c'.n - 1]).getD (j - 1) 0 + 1) ∧ c'.knots off = border c num j ∧
      c'.knots (off + c.degree) = border c num j ∧ off + c.degree ≤ c'.n := by
    by_cases h0 : j = 0
    · refine ⟨0, by rw [if_pos h0], ?_, ?_, by omega⟩
      · rw [h0, hc.first, border_zero]
      · rw [Nat.zero_add, h0, hc.start, border_zero]
    · have hl : j - 1 < l.length := by rw [hc.length]; omega
      obtain ⟨e, he⟩ : ∃ e, l[j - 1]? = some e := ⟨l[j - 1], List.getElem?_eq_getElem _⟩
      obtain ⟨a1, a2, a3, a4⟩ := hc.at' (j - 1) e he
      have e3 : j - 1 + 1 = j := by omega
      rw [e3] at a4
      refine ⟨e + 1, ?_, a4 _ (by omega) (by omega), a4 _ (by omega) (by omega), by omega⟩
      rw [if_neg h0, List.getD_eq_getElem?_getD, List.getElem?_append_left hl, he]
      rfl
  refine ⟨off, fin, by rw [hr, hoff], ?_, f1, o1, o2, f2, f3⟩
  by_contra hcon
  have := hc.wf.mono (fin + 1) (off + c.degree) (by omega) (by omega)
  rw [f2, o2] at this
  exact absurd (border_lt c hlt num j (j + 1) (by omega) hn) (not_lt.2 this)

end Verif.Geom.Nurbs
