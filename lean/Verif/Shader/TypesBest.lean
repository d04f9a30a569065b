import Verif.Shader.TypesSafe

/-
Lemmas for property C78: which function is chosen.
-/
set_option linter.unusedSectionVars false
set_option linter.unusedSimpArgs false

namespace Verif.Shader.Types

theorem valids_vars (us : List Ty) : valids (vars us) = .ok (us.map casts) := by
  induction us with
  | nil => rfl
  | cons u us ih =>
    show ((valid (.var u)).bind fun a => (valids (vars us)).bind fun as => .ok (a :: as)) = _
    rw [ih]
    rfl

theorem vars_len (us : List Ty) : (vars us).len = us.length := by
  induction us with
  | nil => rfl
  | cons u us ih => simp [vars, Expr.len, ih]

theorem casts_find (u p : Ty) :
    (casts u).find? (fun x => x.1 = p) =
      if u = p then some (p, 99) else if pri u p ≠ 0 then some (p, pri u p) else none := by
  cases u <;> cases p <;> rfl

theorem weigh_vars (dots : Bool) (ps us : List Ty)
    (hl : ps.length = us.length ∨ (dots = true ∧ ps.length ≤ us.length)) :
    (∀ w, weigh dots ps (us.map casts) = .ok (some w) →
      (∀ x ∈ us.zip ps, x.1 = x.2 ∨ pri x.1 x.2 ≠ 0) ∧
      w = ((us.zip ps).map (fun x => if x.1 = x.2 then 99 else pri x.1 x.2)).sum) ∧
    ((∀ x ∈ us.zip ps, x.1 = x.2 ∨ pri x.1 x.2 ≠ 0) →
      ∃ w, weigh dots ps (us.map casts) = .ok (some w)) := by
  induction ps generalizing us with
  | nil =>
    cases us with
    | nil => simp [weigh]
    | cons u us =>
      rcases hl with hl | hl
      · simp at hl
      · simp [weigh, hl.1]
  | cons p ps ih =>
    cases us with
    | nil => simp at hl
    | cons u us =>
      obtain ⟨i1, i2⟩ := ih us (by simpa using hl)
      constructor
      · intro w hw
        simp only [List.map_cons, weigh] at hw
        obtain ⟨v, hv, hw⟩ := bind_ok hw
        rw [casts_find] at hw
        cases v with
        | none => split at hw <;> simp_all
        | some v =>
          obtain ⟨j1, j2⟩ := i1 v hv
          by_cases h1 : u = p
          · rw [if_pos h1] at hw
            simp only [Res.ok.injEq, Option.some.injEq] at hw
            refine ⟨?_, ?_⟩
            · intro x hx
              rcases List.mem_cons.mp hx with h | h
              · subst h; exact .inl h1
              · exact j1 x h
            · simp [h1, ← hw, j2]
          · rw [if_neg h1] at hw
            by_cases h2 : pri u p ≠ 0
            · rw [if_pos h2] at hw
              simp only [Res.ok.injEq, Option.some.injEq] at hw
              refine ⟨?_, ?_⟩
              · intro x hx
                rcases List.mem_cons.mp hx with h | h
                · subst h; exact .inr h2
                · exact j1 x h
              · simp [h1, ← hw, j2]
            · rw [if_neg h2] at hw
              simp at hw
      · intro hx
        obtain ⟨v, hv⟩ := i2 (fun x h => hx x (by simp [h]))
        have := hx (u, p) (by simp)
        simp only [List.map_cons, weigh, hv, Res.bind, casts_find]
        by_cases h1 : u = p
        · simp [h1]
        · simp only [h1, if_false]
          rcases this with h | h
          · exact absurd h h1
          · simp only at h
            simp [h]

theorem castLoop_some (c : Ty) (ts : List Ty) (r : Ty) (p : Nat) (h : ∃ t ∈ ts, pri c t > p) :
    castLoop c ts r p ∈ ts := by
  induction ts generalizing r p with
  | nil => obtain ⟨t, ht, _⟩ := h; simp at ht
  | cons t ts ih =>
    simp only [castLoop]
    split
    · rcases castLoop_mem c ts t (pri c t) with h1 | h1
      · rw [h1]; simp
      · simp [h1]
    · rename_i hn
      obtain ⟨u, hu, hp⟩ := h
      rcases List.mem_cons.mp hu with h1 | h1
      · subst h1; exact absurd hp hn
      · have := ih r p ⟨u, h1, hp⟩
        simp [this]

theorem findCast_iff (c : Ty) (ts : List Ty) (hc : c ≠ .nil) (hn : Ty.nil ∉ ts) :
    findCast c ts ≠ .nil ↔ ∃ t ∈ ts, c = t ∨ pri c t ≠ 0 := by
  constructor
  · intro h
    rcases findCast_pri c ts h with ⟨h1, h2⟩ | h1
    · exact ⟨c, h1, .inl rfl⟩
    · exact ⟨_, findCast_mem c ts h, .inr h1⟩
  · rintro ⟨t, ht, h⟩ hx
    unfold findCast at hx
    split at hx
    · exact hc hx
    · rename_i hm
      have : castLoop c ts .nil 0 ∈ ts := by
        apply castLoop_some
        rcases h with h | h
        · subst h; exact absurd ht hm
        · exact ⟨t, ht, by omega⟩
      rw [hx] at this
      exact hn this

theorem findCast_self (c : Ty) (ts : List Ty) (hc : c ≠ .nil) : findCast c ts = c ↔ c ∈ ts := by
  constructor
  · intro h
    have := findCast_mem c ts (by rw [h]; exact hc)
    rwa [h] at this
  · intro h
    unfold findCast
    rw [if_pos h]

theorem consider_vars (ts us : List Ty) (g : Func) (w : Nat) (hr : g.ret ≠ .nil) (hn : Ty.nil ∉ ts) :
    consider ts (us.map casts) g = .fit w ↔ Fits ts us g ∧ w = score ts us g := by
  constructor
  · intro h
    obtain ⟨h1, h2, h3, v, hv, hw⟩ := consider_fit _ _ _ _ h
    rw [List.length_map] at h2 h3
    have hl : g.params.length = us.length ∨ (g.dots = true ∧ g.params.length ≤ us.length) := by
      cases hd : g.dots with
      | false => exact .inl (h3 hd)
      | true => exact .inr ⟨rfl, h2⟩
    obtain ⟨i1, i2⟩ := (weigh_vars g.dots g.params us hl).1 v hv
    refine ⟨⟨hl, (findCast_iff g.ret ts hr hn).mp h1, i1⟩, ?_⟩
    rw [hw, i2]
    unfold score
    by_cases hm : g.ret ∈ ts
    · rw [if_pos hm, if_pos ((findCast_self g.ret ts hr).mpr hm)]
    · rw [if_neg hm, if_neg (fun h => hm ((findCast_self g.ret ts hr).mp h))]
  · rintro ⟨⟨hl, h1, h2⟩, rfl⟩
    obtain ⟨v, hv⟩ := (weigh_vars g.dots g.params us hl).2 h2
    obtain ⟨_, i2⟩ := (weigh_vars g.dots g.params us hl).1 v hv
    unfold consider
    rw [if_neg, if_neg ((findCast_iff g.ret ts hr hn).mpr h1), hv]
    · simp only [Verdict.fit.injEq]
      rw [i2]
      unfold score
      by_cases hm : g.ret ∈ ts
      · rw [if_pos hm, if_pos ((findCast_self g.ret ts hr).mpr hm)]
      · rw [if_neg hm, if_neg (fun h => hm ((findCast_self g.ret ts hr).mp h))]
    · rw [List.length_map]
      rintro ⟨_, h | h⟩
      · rcases hl with hl | hl
        · exact h.2 hl
        · rw [hl.1] at h; simp at h
      · omega

theorem select_best (ts : List Ty) (as : List (List (Ty × Nat))) (fs : List Func)
    (b0 : Option (Func × Nat)) (l : List Func) (b : Func × Nat)
    (h : select ts as fs b0 = .ok (l, some b)) :
    (b0 = some b ∧ ∀ f ∈ fs, ∀ w, consider ts as f = .fit w → w ≤ b.2) ∨
    (∃ pre post, fs = pre ++ b.1 :: post ∧ consider ts as b.1 = .fit b.2 ∧
      (∀ g v, b0 = some (g, v) → v < b.2) ∧
      (∀ f ∈ pre, ∀ w, consider ts as f = .fit w → w < b.2) ∧
      ∀ f ∈ post, ∀ w, consider ts as f = .fit w → w ≤ b.2) := by
  induction fs generalizing b0 l with
  | nil =>
    simp only [select, Res.ok.injEq, Prod.mk.injEq] at h
    left; exact ⟨h.2, by simp⟩
  | cons f fs ih =>
    have lift : ∀ (l' : List Func), select ts as fs b0 = .ok (l', some b) →
        (∀ w, consider ts as f ≠ .fit w) →
        (b0 = some b ∧ ∀ f' ∈ f :: fs, ∀ w, consider ts as f' = .fit w → w ≤ b.2) ∨
        (∃ pre post, f :: fs = pre ++ b.1 :: post ∧ consider ts as b.1 = .fit b.2 ∧
          (∀ g v, b0 = some (g, v) → v < b.2) ∧
          (∀ f ∈ pre, ∀ w, consider ts as f = .fit w → w < b.2) ∧
          ∀ f ∈ post, ∀ w, consider ts as f = .fit w → w ≤ b.2) := by
      intro l' hl hf
      rcases ih b0 l' hl with ⟨h1, h2⟩ | ⟨pre, post, h1, h2, h3, h4, h5⟩
      · left
        refine ⟨h1, ?_⟩
        intro x hx w hw
        rcases List.mem_cons.mp hx with h | h
        · subst h; exact absurd hw (hf w)
        · exact h2 x h w hw
      · right
        refine ⟨f :: pre, post, by simp [h1], h2, h3, ?_, h5⟩
        intro x hx w hw
        rcases List.mem_cons.mp hx with h | h
        · subst h; exact absurd hw (hf w)
        · exact h4 x h w hw
    simp only [select] at h
    split at h
    · rename_i hc
      exact lift l h (fun w hw => by rw [hc] at hw; simp at hw)
    · rename_i hc
      obtain ⟨x, hx, h⟩ := bind_ok h
      injection h with h
      injection h with ha hb
      obtain ⟨x1, x2⟩ := x
      simp only at ha hb
      subst hb
      exact lift x1 hx (fun w hw => by rw [hc] at hw; simp at hw)
    · rename_i w hw
      obtain ⟨x, hx, h⟩ := bind_ok h
      injection h with h
      injection h with ha hb
      obtain ⟨x1, x2⟩ := x
      simp only at ha hb
      subst hb
      have hfw : ∀ w', consider ts as f = .fit w' → w' = w := by
        intro w' h'
        rw [hw] at h'
        injection h' with h'
        exact h'.symm
      rcases ih _ x1 hx with ⟨h1, h2⟩ | ⟨pre, post, h1, h2, h3, h4, h5⟩
      · cases b0 with
        | none =>
          simp only [Option.some.injEq] at h1
          subst h1
          exact .inr ⟨[], fs, rfl, hw, by simp, by simp, h2⟩
        | some g =>
          obtain ⟨g, v⟩ := g
          simp only at h1
          split at h1
          · rename_i hlt
            simp only [Option.some.injEq] at h1
            subst h1
            refine .inr ⟨[], fs, rfl, hw, ?_, by simp, h2⟩
            intro g' v' h'
            simp only [Option.some.injEq, Prod.mk.injEq] at h'
            rw [← h'.2]
            exact hlt
          · rename_i hge
            left
            refine ⟨h1, ?_⟩
            intro y hy w' hw'
            rcases List.mem_cons.mp hy with h | h
            · subst h
              rw [hfw w' hw']
              simp only [Option.some.injEq] at h1
              rw [← h1]
              simp only
              omega
            · exact h2 y h w' hw'
      · right
        have hwb : w < b.2 ∧ ∀ g v, b0 = some (g, v) → v < b.2 := by
          cases b0 with
          | none => exact ⟨h3 f w rfl, by simp⟩
          | some g =>
            obtain ⟨g, v⟩ := g
            simp only at h3
            by_cases hlt : v < w
            · rw [if_pos hlt] at h3
              have := h3 f w rfl
              refine ⟨this, ?_⟩
              intro g' v' h'
              simp only [Option.some.injEq, Prod.mk.injEq] at h'
              omega
            · rw [if_neg hlt] at h3
              have := h3 g v rfl
              refine ⟨by omega, ?_⟩
              intro g' v' h'
              simp only [Option.some.injEq, Prod.mk.injEq] at h'
              omega
        refine ⟨f :: pre, post, by simp [h1], h2, hwb.2, ?_, h5⟩
        intro y hy w' hw'
        rcases List.mem_cons.mp hy with h | h
        · subst h
          rw [hfw w' hw']
          exact hwb.1
        · exact h4 y h w' hw'
    · simp at h

theorem select_none (ts : List Ty) (as : List (List (Ty × Nat))) (fs : List Func)
    (b0 : Option (Func × Nat)) (l : List Func) (h : select ts as fs b0 = .ok (l, none)) :
    b0 = none ∧ ∀ f ∈ fs, ∀ w, consider ts as f ≠ .fit w := by
  induction fs generalizing b0 l with
  | nil =>
    simp only [select, Res.ok.injEq, Prod.mk.injEq] at h
    exact ⟨h.2, by simp⟩
  | cons f fs ih =>
    simp only [select] at h
    split at h
    · rename_i hc
      obtain ⟨h1, h2⟩ := ih _ _ h
      refine ⟨h1, ?_⟩
      intro x hx w hw
      rcases List.mem_cons.mp hx with h | h
      · subst h; rw [hc] at hw; simp at hw
      · exact h2 x h w hw
    · rename_i hc
      obtain ⟨x, hx, h⟩ := bind_ok h
      injection h with h
      injection h with ha hb
      obtain ⟨x1, x2⟩ := x
      simp only at ha hb
      subst hb
      obtain ⟨h1, h2⟩ := ih _ _ hx
      refine ⟨h1, ?_⟩
      intro x hx w hw
      rcases List.mem_cons.mp hx with h | h
      · subst h; rw [hc] at hw; simp at hw
      · exact h2 x h w hw
    · obtain ⟨x, hx, h⟩ := bind_ok h
      injection h with h
      injection h with ha hb
      obtain ⟨x1, x2⟩ := x
      simp only at ha hb
      subst hb
      obtain ⟨h1, _⟩ := ih _ _ hx
      cases b0 with
      | none => simp at h1
      | some g =>
        obtain ⟨g, v⟩ := g
        simp only at h1
        split at h1 <;> simp at h1
    · simp at h

theorem check_vars (us : List Ty) : check us (vars us) = .ok (.nil, vars us) := by
  induction us with
  | nil => rfl
  | cons u us ih =>
    have h1 : check [u] (.var u) = .ok (u, .var u) := by
      show conv [u] u (.var u) = _
      unfold conv
      rw [if_pos (by simp)]
    show (check (u :: us) (.cons (.var u) (vars us))) = _
    simp only [check] at h1 ⊢
    rw [h1, ih]
    rfl

theorem opt_vars (us : List Ty) : opt (vars us) = vars us := by
  induction us with
  | nil => rfl
  | cons u us ih => simp [vars, opt, ih]

theorem gen_vars (us : List Ty) : gen (vars us) = .ok (us.map Instr.push).reverse := by
  induction us with
  | nil => rfl
  | cons u us ih => simp [vars, gen, ih, Res.bind]

theorem zip_self (us : List Ty) (x : Ty × Ty) (h : x ∈ us.zip us) : x.1 = x.2 := by
  induction us with
  | nil => simp at h
  | cons u us ih =>
    rcases List.mem_cons.mp h with h | h
    · rw [h]
    · exact ih h

theorem score_self (us : List Ty) :
    ((us.zip us).map (fun x => if x.1 = x.2 then 99 else pri x.1 x.2)).sum = 99 * us.length := by
  induction us with
  | nil => rfl
  | cons u us ih =>
    simp only [List.zip_cons_cons, List.map_cons, List.sum_cons, if_true, List.length_cons, ih]
    omega

theorem score_le (us ps : List Ty) (hus : ∀ t ∈ us, Plain t) :
    ((us.zip ps).map (fun x => if x.1 = x.2 then 99 else pri x.1 x.2)).sum ≤ 99 * ps.length ∧
    (((us.zip ps).map (fun x => if x.1 = x.2 then 99 else pri x.1 x.2)).sum = 99 * us.length →
      ps.length ≤ us.length → ps = us) := by
  induction us generalizing ps with
  | nil =>
    refine ⟨by simp, ?_⟩
    intro _ h
    simpa using h
  | cons u us ih =>
    cases ps with
    | nil =>
      refine ⟨by simp, ?_⟩
      intro h
      simp only [List.zip_nil_right, List.map_nil, List.sum_nil, List.length_cons] at h
      omega
    | cons p ps =>
      obtain ⟨i1, i2⟩ := ih ps (fun t ht => hus t (by simp [ht]))
      have hp : ∀ u p : Ty, Plain u → pri u p ≤ 99 ∧ (u ≠ p → pri u p < 99) := by
        intro u p h
        revert h
        cases u <;> cases p <;> simp [Plain, pri]
      obtain ⟨k1, k2⟩ := hp u p (hus u (by simp))
      simp only [List.zip_cons_cons, List.map_cons, List.sum_cons, List.length_cons]
      by_cases hup : u = p
      · rw [if_pos hup]
        refine ⟨by omega, ?_⟩
        intro h1 h2
        rw [hup, i2 (by omega) (by omega)]
      · rw [if_neg hup]
        have := k2 hup
        refine ⟨by omega, ?_⟩
        intro h1 h2
        omega

/-- A list of types with weights tells the same as that of the type `u`. -/
def Agree (a : List (Ty × Nat)) (u : Ty) : Prop :=
  ∀ p, a.find? (fun x => x.1 = p) = (casts u).find? (fun x => x.1 = p)

/-- The same for several arguments. -/
def AgreeAll : List (List (Ty × Nat)) → List Ty → Prop
  | [], us => us = []
  | a :: as, us => ∃ u vs, us = u :: vs ∧ Agree a u ∧ AgreeAll as vs

theorem agree_call (u : Ty) (_h : u ≠ .nil) : Agree (callCasts u) u := by
  intro p
  rw [casts_find]
  cases u <;> cases p <;> first | rfl | decide

theorem agree_length {as : List (List (Ty × Nat))} {us : List Ty} (h : AgreeAll as us) :
    as.length = us.length := by
  induction as generalizing us with
  | nil => rw [show us = [] from h]; rfl
  | cons a as ih =>
    obtain ⟨u, vs, rfl, _, h⟩ := h
    simp [ih h]

theorem weigh_congr (dots : Bool) (ps : List Ty) {as : List (List (Ty × Nat))} {us : List Ty}
    (h : AgreeAll as us) : weigh dots ps as = weigh dots ps (us.map casts) := by
  induction as generalizing us ps with
  | nil => rw [show us = [] from h]; rfl
  | cons a as ih =>
    obtain ⟨u, vs, rfl, ha, h⟩ := h
    cases ps with
    | nil => rfl
    | cons p ps => simp only [weigh, List.map_cons, ih ps h, ha p]

theorem consider_congr (ts : List Ty) (f : Func) {as : List (List (Ty × Nat))} {us : List Ty}
    (h : AgreeAll as us) : consider ts as f = consider ts (us.map casts) f := by
  unfold consider
  rw [weigh_congr f.dots f.params h, agree_length h, List.length_map]

theorem select_congr (ts : List Ty) {as : List (List (Ty × Nat))} {us : List Ty}
    (h : AgreeAll as us) (fs : List Func) (b : Option (Func × Nat)) :
    select ts as fs b = select ts (us.map casts) fs b := by
  induction fs generalizing b with
  | nil => rfl
  | cons f fs ih => simp only [select, consider_congr ts f h, ih]

theorem select_is_best (ts us : List Ty) (fs l : List Func) (b : Func × Nat) (hn : Ty.nil ∉ ts)
    (hr : ∀ g ∈ fs, g.ret ≠ .nil) (h : select ts (us.map casts) fs none = .ok (l, some b)) :
    Best ts us fs b.1 := by
  rcases select_best _ _ _ _ _ _ h with ⟨h1, _⟩ | ⟨pre, post, h1, h2, _, h4, h5⟩
  · simp at h1
  · have hmem : ∀ g, g ∈ pre ∨ g = b.1 ∨ g ∈ post → g.ret ≠ .nil := by
      intro g hg
      apply hr
      rw [h1]
      simp only [List.mem_append, List.mem_cons]
      exact hg
    obtain ⟨k1, k2⟩ := (consider_vars ts us b.1 b.2 (hmem _ (.inr (.inl rfl))) hn).mp h2
    refine ⟨pre, post, h1, k1, ?_, ?_⟩
    · intro g hg hfit
      rw [← k2]
      exact h4 g hg _ ((consider_vars ts us g _ (hmem g (.inl hg)) hn).mpr ⟨hfit, rfl⟩)
    · intro g hg hfit
      rw [← k2]
      exact h5 g hg _ ((consider_vars ts us g _ (hmem g (.inr (.inr hg))) hn).mpr ⟨hfit, rfl⟩)

theorem best_before {ts us : List Ty} {pre l post' post : List Func} {g g' : Func}
    (h : g :: post = l ++ g' :: post') (hg : Fits ts us g) (hg' : Fits ts us g')
    (h1 : ∀ f ∈ pre ++ l, Fits ts us f → score ts us f < score ts us g')
    (h2 : ∀ f ∈ post, Fits ts us f → score ts us f ≤ score ts us g) : g = g' := by
  cases l with
  | nil =>
    simp only [List.nil_append, List.cons.injEq] at h
    exact h.1
  | cons x l =>
    simp only [List.cons_append, List.cons.injEq] at h
    obtain ⟨rfl, h⟩ := h
    have a := h1 g (by simp) hg
    have b := h2 g' (by rw [h]; simp) hg'
    omega

theorem best_unique {ts us : List Ty} {fs : List Func} {g g' : Func} (h : Best ts us fs g)
    (h' : Best ts us fs g') : g = g' := by
  obtain ⟨pre, post, e, hf, h1, h2⟩ := h
  obtain ⟨pre', post', e', hf', h1', h2'⟩ := h'
  rw [e] at e'
  rcases List.append_eq_append_iff.mp e' with ⟨l, hl, hl'⟩ | ⟨l, hl, hl'⟩
  · exact best_before hl' hf hf' (hl ▸ h1') h2
  · exact (best_before hl' hf' hf (hl ▸ h1) h2').symm

theorem valid_types (e : Expr) :
    (∀ t, TypeOf e t → ∃ a, valid e = .ok a ∧ Agree a t) ∧
    (∀ us, TypesOf e us → ∃ as, valids e = .ok as ∧ AgreeAll as us) := by
  induction e with
  | num => exact ⟨fun t h => ⟨_, rfl, fun p => by rw [show t = .float from h]⟩, fun _ h => h.elim⟩
  | str => exact ⟨fun t h => ⟨_, rfl, fun p => by rw [show t = .string from h]⟩, fun _ h => h.elim⟩
  | var u => exact ⟨fun t h => ⟨_, rfl, fun p => by rw [show t = u from h]⟩, fun _ h => h.elim⟩
  | nil => exact ⟨fun t h => h.elim, fun us h => ⟨[], rfl, h⟩⟩
  | cons e r ih1 ih2 =>
    refine ⟨fun t h => h.elim, ?_⟩
    rintro us ⟨t, ts, rfl, h1, h2⟩
    obtain ⟨a, ha, ga⟩ := ih1.1 t h1
    obtain ⟨as, has, gas⟩ := ih2.2 ts h2
    exact ⟨a :: as, by simp only [valids, ha, has, Res.bind], t, ts, rfl, ga, gas⟩
  | call fs args ih =>
    refine ⟨?_, fun us h => h.elim⟩
    rintro t ⟨hr, us, g, h1, h2, rfl, hz⟩
    obtain ⟨as, has, gas⟩ := ih.2 us h1
    cases fs with
    | nil => obtain ⟨pre, post, h, _⟩ := h2; simp at h
    | cons f fs =>
      obtain ⟨⟨l, b⟩, hb⟩ := select_ok all as (f :: fs) none
        (fun q hq h1 h2 => by rw [agree_length gas, hz q hq h1 h2]; rfl)
      have hb' := hb
      rw [select_congr all gas] at hb'
      have hn : Ty.nil ∉ all := by decide
      have hgm : g ∈ f :: fs := by
        obtain ⟨pre, post, h, _⟩ := h2
        rw [h]; simp
      cases b with
      | none =>
        exfalso
        obtain ⟨pre, post, h, hf, _⟩ := h2
        exact (select_none _ _ _ _ _ hb').2 g hgm _
          ((consider_vars all us g _ (hr g hgm) hn).mpr ⟨hf, rfl⟩)
      | some b =>
        have hbg : b.1 = g := best_unique (select_is_best all us _ _ _ hn hr hb') h2
        refine ⟨callCasts g.ret, ?_, agree_call _ (hr g hgm)⟩
        simp only [valid, has, Res.bind, hb, hbg]
  | _ => exact ⟨fun t h => h.elim, fun us h => h.elim⟩

theorem types_vars (us : List Ty) : TypesOf (vars us) us := by
  induction us with
  | nil => rfl
  | cons u us ih => exact ⟨u, us, rfl, rfl, ih⟩

end Verif.Shader.Types
