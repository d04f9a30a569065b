import Verif.Shader.TypesKnown

/-
Lemmas for property C78: nothing is undefined, and a function which fits exactly is chosen.
-/
set_option linter.unusedSectionVars false
set_option linter.unusedSimpArgs false

namespace Verif.Shader.Types

theorem bind_ub {α β : Type} {r : Res α} {f : α → Res β} (h : r.bind f = .ub) (hr : r ≠ .ub) :
    ∃ a, r = .ok a ∧ f a = .ub := by
  cases r with
  | ok a => exact ⟨a, rfl, h⟩
  | err => exact absurd h (by simp [Res.bind])
  | ub => exact absurd rfl hr

theorem safe_resType (e : Expr) (h : Safe e) : ∃ t, resType e = .ok t := by
  induction e with
  | not e ih => exact ih h
  | cond c a b ih _ _ => exact ih h.1
  | call fs args _ =>
    cases fs with
    | nil => exact absurd rfl h.1
    | cons f fs => exact ⟨_, rfl⟩
  | _ => exact ⟨_, rfl⟩

theorem weigh_ub (dots : Bool) (ps : List Ty) (as : List (List (Ty × Nat)))
    (h : dots = true ∨ as.length ≤ ps.length) : weigh dots ps as ≠ .ub := by
  induction ps generalizing as with
  | nil =>
    cases as with
    | nil => simp [weigh]
    | cons a as =>
      rcases h with h | h
      · simp [weigh, h]
      · simp at h
  | cons p ps ih =>
    cases as with
    | nil => simp [weigh]
    | cons a as =>
      intro hw
      simp only [weigh] at hw
      obtain ⟨x, _, hx⟩ := bind_ub hw (ih as (by
        rcases h with h | h
        · exact .inl h
        · exact .inr (by simpa using h)))
      split at hx <;> simp at hx

theorem weigh_ok_ne_err (dots : Bool) (ps : List Ty) (as : List (List (Ty × Nat))) :
    weigh dots ps as ≠ .err := by
  induction ps generalizing as with
  | nil =>
    cases as with
    | nil => simp [weigh]
    | cons a as => cases dots <;> simp [weigh]
  | cons p ps ih =>
    cases as with
    | nil => simp [weigh]
    | cons a as =>
      intro hw
      simp only [weigh] at hw
      cases hx : weigh dots ps as with
      | err => exact ih as hx
      | ub => rw [hx] at hw; simp [Res.bind] at hw
      | ok x =>
        rw [hx] at hw
        simp only [Res.bind] at hw
        split at hw <;> simp at hw

theorem consider_ub (ts : List Ty) (as : List (List (Ty × Nat))) (f : Func)
    (h : f.params = [] → f.dots = false → as.length = 0) : consider ts as f ≠ .ub := by
  unfold consider
  split
  · simp
  · rename_i h1
    split
    · simp
    · have hw : weigh f.dots f.params as ≠ .ub := by
        apply weigh_ub
        cases hd : f.dots with
        | true => exact .inl rfl
        | false =>
          right
          by_cases h0 : f.params = []
          · rw [h h0 hd]; omega
          · have : 0 < f.params.length := List.length_pos_iff.mpr h0
            refine Decidable.byContradiction fun hc => ?_
            exact h1 ⟨this, .inl ⟨hd, by omega⟩⟩
      have he := weigh_ok_ne_err f.dots f.params as
      cases hx : weigh f.dots f.params as with
      | ub => exact absurd hx hw
      | err => exact absurd hx he
      | ok x => cases x <;> simp

theorem select_ok (ts : List Ty) (as : List (List (Ty × Nat))) (fs : List Func)
    (b : Option (Func × Nat)) (h : ∀ f ∈ fs, f.params = [] → f.dots = false → as.length = 0) :
    ∃ r, select ts as fs b = .ok r := by
  induction fs generalizing b with
  | nil => exact ⟨_, rfl⟩
  | cons f fs ih =>
    have hf := consider_ub ts as f (h f (by simp))
    have ih' := fun b => ih b (fun g hg => h g (by simp [hg]))
    simp only [select]
    cases hc : consider ts as f with
    | drop => exact ih' b
    | skip =>
      obtain ⟨r, hr⟩ := ih' b
      simp only [hr, Res.bind]
      exact ⟨_, rfl⟩
    | fit w =>
      cases b with
      | none =>
        obtain ⟨r, hr⟩ := ih' (some (f, w))
        simp only [hr, Res.bind]
        exact ⟨_, rfl⟩
      | some g =>
        obtain ⟨g, v⟩ := g
        obtain ⟨r, hr⟩ := ih' (if v < w then some (f, w) else some (g, v))
        simp only [hr, Res.bind]
        exact ⟨_, rfl⟩
    | ub => exact absurd hc hf

theorem safe_valid (e : Expr) (h : Safe e) : (∃ a, valid e = .ok a) ∧ ∃ as, valids e = .ok as := by
  have other : ∀ x : Expr, Safe x → (valid x = (resType x).bind fun t => .ok (casts t)) →
      ∃ a, valid x = .ok a := by
    intro x hx hv
    obtain ⟨t, ht⟩ := safe_resType x hx
    rw [hv, ht]
    exact ⟨_, rfl⟩
  induction e with
  | call fs args ih =>
    refine ⟨?_, _, rfl⟩
    cases fs with
    | nil => exact absurd rfl h.1
    | cons f fs =>
      obtain ⟨_, as, has⟩ := ih h.2.2
      have hl := valids_len _ _ has
      obtain ⟨r, hr⟩ := select_ok all as (f :: fs) none
        (fun g hg h1 h2 => by rw [hl]; exact (h.2.1 g hg).1 h1 h2)
      simp only [valid, has, hr, Res.bind]
      exact ⟨_, rfl⟩
  | cons e r ihe ihr =>
    refine ⟨other _ h rfl, ?_⟩
    obtain ⟨⟨a, ha⟩, _⟩ := ihe h.1
    obtain ⟨_, as, has⟩ := ihr h.2
    simp only [valids, ha, has, Res.bind]
    exact ⟨_, rfl⟩
  | _ => exact ⟨other _ h rfl, _, rfl⟩

theorem conv_ub (ts : List Ty) (t : Ty) (e : Expr) : conv ts t e ≠ .ub := by
  unfold conv
  split
  · simp
  · split <;> simp

/-- Code can be written for an expression. -/
def Writes (e : Expr) : Prop := (∃ c, gen e = .ok c) ∧ ∃ t, resType e = .ok t

theorem writes_cast (u : Ty) (e : Expr) (h : Writes (opt e)) : Writes (opt (.cast u e)) := by
  show Writes (if resType (opt e) = .ok u then opt e else .cast u (opt e))
  split
  · exact h
  · obtain ⟨⟨c, hc⟩, t, ht⟩ := h
    refine ⟨?_, u, rfl⟩
    simp only [gen, ht, hc, Res.bind]
    split
    · exact ⟨_, rfl⟩
    · exact ⟨_, rfl⟩

theorem writes_conv (ts : List Ty) (t : Ty) (e : Expr) (r : Ty × Expr) (h : conv ts t e = .ok r)
    (hw : Writes (opt e)) : Writes (opt r.2) := by
  rcases conv_cases ts t e r h with ⟨hm, rfl⟩ | ⟨u, hu, rfl⟩
  · exact hw
  · exact writes_cast u e hw

theorem simple_writes (k : Option Ty) (e : Expr) (h : Simple k e) : Writes e := by
  cases e with
  | num | str | var t => exact ⟨⟨_, rfl⟩, _, rfl⟩
  | _ => exact absurd h (by simp [Simple])

theorem writes_cons (e r : Expr) (he : Writes e) (hr : Writes r) : Writes (.cons e r) := by
  obtain ⟨⟨c, hc⟩, _⟩ := he
  obtain ⟨⟨d, hd⟩, _⟩ := hr
  refine ⟨?_, _, rfl⟩
  simp only [gen, hc, hd, Res.bind]
  exact ⟨_, rfl⟩

theorem rest_writes (k : Option Ty) (e : Expr) (hf : Fine .list e) (h : SimpleAfter k 0 e) :
    Writes (opt (prune e)) := by
  induction e with
  | nil => exact ⟨⟨_, rfl⟩, _, rfl⟩
  | cons e r _ ih =>
    obtain ⟨h1, _⟩ := simple_leaves k e h.1
    show Writes (.cons (opt (prune e)) (opt (prune r)))
    rw [h1]
    exact writes_cons _ _ (simple_writes k e h.1) (ih hf.2 h.2)
  | _ => simp [Fine] at hf

/-- What the third induction proves. -/
structure Main3 (e : Expr) : Prop where
  node : (Fine .expr e ∨ Fine .rel e) → Safe e → ∀ ts, check ts e ≠ .ub ∧
    ∀ r, check ts e = .ok r → Writes (opt r.2)
  list : Fine .list e → Safe e → ∀ ps k, ps.length ≤ e.len → SimpleAfter k ps.length e →
    check ps e ≠ .ub ∧ ∀ r, check ps e = .ok r → Writes (opt r.2)

theorem node_ub {α : Type} (e : Expr) (ts : List Ty) (f : Ty × Expr → Res α)
    (h : (check ts e).bind f = .ub) (he : check ts e ≠ .ub) :
    ∃ r, check ts e = .ok r ∧ f r = .ub := bind_ub h he

theorem type_ub {α : Type} (e : Expr) (f : Ty → Res α) (hs : Safe e)
    (h : (resType e).bind f = .ub) : ∃ t, f t = .ub := by
  obtain ⟨t, ht⟩ := safe_resType e hs
  rw [ht] at h
  exact ⟨t, h⟩

theorem main_safe (e : Expr) : Main3 e := by
  induction e with
  | num | str | var t =>
    refine ⟨?_, fun h => by simp [Fine] at h⟩
    intro _ _ ts
    exact ⟨conv_ub _ _ _, fun r h => writes_conv ts _ _ r h ⟨⟨_, rfl⟩, _, rfl⟩⟩
  | elem t i ih =>
    refine ⟨?_, fun h => by simp [Fine] at h⟩
    intro hf hs ts
    have hf : Fine .expr i := by simpa [Fine] using (hf.resolve_right (by simp [Fine])).2
    obtain ⟨h1, h2⟩ := ih.node (.inl hf) hs [.float]
    constructor
    · intro h
      simp only [check] at h
      obtain ⟨r, _, h⟩ := node_ub i _ _ h h1
      split at h
      · simp at h
      · exact conv_ub _ _ _ h
    · intro r h
      simp only [check] at h
      obtain ⟨x, hx, h⟩ := bind_ok h
      split at h
      · simp at h
      · refine writes_conv ts _ _ r h ⟨?_, _, rfl⟩
        obtain ⟨⟨c, hc⟩, _⟩ := h2 x hx
        simp only [opt, gen, hc, Res.bind]
        exact ⟨_, rfl⟩
  | assign t e ih =>
    refine ⟨?_, fun h => by simp [Fine] at h⟩
    intro hf hs ts
    have hf : Fine .expr e := by simpa [Fine] using (hf.resolve_right (by simp [Fine])).2
    obtain ⟨h1, h2⟩ := ih.node (.inl hf) hs [t]
    have hw : ∀ x, check [t] e = .ok x → Writes (opt (.assign t x.2)) := by
      intro x hx
      refine ⟨?_, _, rfl⟩
      obtain ⟨⟨c, hc⟩, _⟩ := h2 x hx
      simp only [opt, gen, hc, Res.bind]
      exact ⟨_, rfl⟩
    constructor
    · intro h
      simp only [check] at h
      obtain ⟨r, _, h⟩ := node_ub e _ _ h h1
      split at h
      · simp at h
      · exact conv_ub _ _ _ h
    · intro r h
      simp only [check] at h
      obtain ⟨x, hx, h⟩ := bind_ok h
      split at h
      · injection h with h
        subst h
        exact hw x hx
      · exact writes_conv ts _ _ r h (hw x hx)
  | rel o a b iha ihb =>
    refine ⟨?_, fun h => by simp [Fine] at h⟩
    intro hf hs ts
    obtain ⟨fa, fb, _, _⟩ := hf.resolve_left (by simp [Fine])
    constructor
    · intro h
      simp only [check] at h
      obtain ⟨ta, h⟩ := type_ub a _ hs.1 h
      obtain ⟨tb, h⟩ := type_ub b _ hs.2 h
      split at h
      · simp at h
      · rename_i t ht
        obtain ⟨ra, _, h⟩ := node_ub a _ _ h (iha.node (.inl fa) hs.1 [t]).1
        obtain ⟨rb, _, h⟩ := node_ub b _ _ h (ihb.node (.inl fb) hs.2 [t]).1
        split at h
        · simp at h
        · split at h <;> simp at h
    · intro r h
      simp only [check] at h
      obtain ⟨_, _, h⟩ := bind_ok h
      obtain ⟨_, _, h⟩ := bind_ok h
      split at h
      · simp at h
      · rename_i t ht
        obtain ⟨ra, hra, h⟩ := bind_ok h
        obtain ⟨rb, hrb, h⟩ := bind_ok h
        have hw : Writes (opt (.rel o ra.2 rb.2)) := by
          obtain ⟨⟨ca, hca⟩, ta, hta⟩ := (iha.node (.inl fa) hs.1 [t]).2 ra hra
          obtain ⟨⟨cb, hcb⟩, tb, htb⟩ := (ihb.node (.inl fb) hs.2 [t]).2 rb hrb
          refine ⟨?_, _, rfl⟩
          simp only [opt, gen, hca, hcb, hta, htb, Res.bind]
          exact ⟨_, rfl⟩
        split at h
        · simp at h
        · split at h
          · injection h with h
            subst h
            exact hw
          · injection h with h
            subst h
            exact writes_cast _ _ hw
  | logic o a b iha ihb =>
    refine ⟨?_, fun h => by simp [Fine] at h⟩
    intro hf hs ts
    obtain ⟨fa, fb⟩ := hf.resolve_left (by simp [Fine])
    constructor
    · intro h
      simp only [check] at h
      obtain ⟨ta, h⟩ := type_ub a _ hs.1 h
      obtain ⟨tb, h⟩ := type_ub b _ hs.2 h
      split at h
      · simp at h
      · rename_i t ht
        obtain ⟨ra, _, h⟩ := node_ub a _ _ h (iha.node (.inr fa) hs.1 [t]).1
        obtain ⟨rb, _, h⟩ := node_ub b _ _ h (ihb.node (.inr fb) hs.2 [t]).1
        simp at h
    · intro r h
      simp only [check] at h
      obtain ⟨_, _, h⟩ := bind_ok h
      obtain ⟨_, _, h⟩ := bind_ok h
      split at h
      · simp at h
      · rename_i t ht
        obtain ⟨ra, hra, h⟩ := bind_ok h
        obtain ⟨rb, hrb, h⟩ := bind_ok h
        injection h with h
        subst h
        obtain ⟨⟨ca, hca⟩, ta, hta⟩ := (iha.node (.inr fa) hs.1 [t]).2 ra hra
        obtain ⟨⟨cb, hcb⟩, tb, htb⟩ := (ihb.node (.inr fb) hs.2 [t]).2 rb hrb
        refine ⟨?_, _, rfl⟩
        simp only [opt, gen, hca, hcb, hta, htb, Res.bind]
        exact ⟨_, rfl⟩
  | not e ih =>
    refine ⟨?_, fun h => by simp [Fine] at h⟩
    intro hf hs ts
    have hf : Fine .rel e := by simpa [Fine] using hf
    obtain ⟨h1, h2⟩ := ih.node (.inr hf) hs ts
    constructor
    · intro h
      simp only [check] at h
      obtain ⟨r, _, h⟩ := node_ub e _ _ h h1
      simp at h
    · intro r h
      simp only [check] at h
      obtain ⟨x, hx, h⟩ := bind_ok h
      injection h with h
      subst h
      obtain ⟨⟨c, hc⟩, t, ht⟩ := h2 x hx
      refine ⟨?_, t, ht⟩
      simp only [opt, gen, hc, ht, Res.bind]
      exact ⟨_, rfl⟩
  | cond c a b ihc iha ihb =>
    refine ⟨?_, fun h => by simp [Fine] at h⟩
    intro hf hs ts
    obtain ⟨fc, fa, fb, _⟩ := hf.resolve_right (by simp [Fine])
    obtain ⟨h1, h2⟩ := ihc.node (.inr fc) hs.1 all
    constructor
    · intro h
      simp only [check] at h
      obtain ⟨rc, _, h⟩ := node_ub c _ _ h h1
      obtain ⟨ta, h⟩ := type_ub a _ hs.2.1 h
      obtain ⟨tb, h⟩ := type_ub b _ hs.2.2 h
      split at h
      · simp at h
      · rename_i t ht
        obtain ⟨ra, _, h⟩ := node_ub a _ _ h (iha.node (.inl fa) hs.2.1 [t]).1
        obtain ⟨rb, _, h⟩ := node_ub b _ _ h (ihb.node (.inl fb) hs.2.2 [t]).1
        simp at h
    · intro r h
      simp only [check] at h
      obtain ⟨rc, hrc, h⟩ := bind_ok h
      obtain ⟨_, _, h⟩ := bind_ok h
      obtain ⟨_, _, h⟩ := bind_ok h
      split at h
      · simp at h
      · rename_i t ht
        obtain ⟨ra, hra, h⟩ := bind_ok h
        obtain ⟨rb, hrb, h⟩ := bind_ok h
        injection h with h
        subst h
        obtain ⟨⟨cc, hcc⟩, tc, htc⟩ := h2 rc hrc
        obtain ⟨⟨ca, hca⟩, ta, hta⟩ := (iha.node (.inl fa) hs.2.1 [t]).2 ra hra
        obtain ⟨⟨cb, hcb⟩, tb, htb⟩ := (ihb.node (.inl fb) hs.2.2 [t]).2 rb hrb
        refine ⟨?_, tc, htc⟩
        simp only [opt, gen, hcc, hca, hcb, hta, Res.bind]
        exact ⟨_, rfl⟩
  | cast t e ih =>
    refine ⟨?_, fun h => by simp [Fine] at h⟩
    intro hf hs ts
    have hf : Fine .expr e := (hf.resolve_right (by simp [Fine])).2.1
    obtain ⟨h1, h2⟩ := ih.node (.inl hf) hs [t]
    constructor
    · intro h
      simp only [check] at h
      obtain ⟨r, _, h⟩ := node_ub e _ _ h h1
      exact conv_ub _ _ _ h
    · intro r h
      simp only [check] at h
      obtain ⟨x, hx, h⟩ := bind_ok h
      exact writes_conv ts _ _ r h (writes_cast _ _ (h2 x hx))
  | triple a b c iha ihb ihc =>
    refine ⟨?_, fun h => by simp [Fine] at h⟩
    intro hf hs ts
    obtain ⟨fa, fb, fc⟩ := hf.resolve_right (by simp [Fine])
    obtain ⟨a1, a2⟩ := iha.node (.inl fa) hs.1 [.float]
    obtain ⟨b1, b2⟩ := ihb.node (.inl fb) hs.2.1 [.float]
    obtain ⟨c1, c2⟩ := ihc.node (.inl fc) hs.2.2 [.float]
    constructor
    · intro h
      simp only [check] at h
      obtain ⟨_, _, h⟩ := node_ub a _ _ h a1
      obtain ⟨_, _, h⟩ := node_ub b _ _ h b1
      obtain ⟨_, _, h⟩ := node_ub c _ _ h c1
      exact conv_ub _ _ _ h
    · intro r h
      simp only [check] at h
      obtain ⟨ra, hra, h⟩ := bind_ok h
      obtain ⟨rb, hrb, h⟩ := bind_ok h
      obtain ⟨rc, hrc, h⟩ := bind_ok h
      obtain ⟨⟨ca, hca⟩, _⟩ := a2 ra hra
      obtain ⟨⟨cb, hcb⟩, _⟩ := b2 rb hrb
      obtain ⟨⟨cc, hcc⟩, _⟩ := c2 rc hrc
      refine writes_conv ts _ _ r h ⟨?_, _, rfl⟩
      simp only [opt, gen, hca, hcb, hcc, Res.bind]
      exact ⟨_, rfl⟩
  | hex args ih =>
    refine ⟨?_, fun h => by simp [Fine] at h⟩
    intro hf hs ts
    obtain ⟨fl, hlen⟩ := hf.resolve_right (by simp [Fine])
    obtain ⟨h1, h2⟩ := ih.list fl hs (List.replicate 16 .float) none
      (by rw [List.length_replicate, hlen]; omega)
      (simpleAfter_len _ _ _ (by rw [List.length_replicate, hlen]; omega))
    constructor
    · intro h
      simp only [check] at h
      obtain ⟨_, _, h⟩ := node_ub args _ _ h h1
      split at h
      · simp at h
      · split at h <;> simp at h
    · intro r h
      simp only [check] at h
      obtain ⟨x, hx, h⟩ := bind_ok h
      have hw : Writes (opt (.hex x.2)) := ⟨(h2 x hx).1, _, rfl⟩
      split at h
      · injection h with h
        subst h
        exact hw
      · split at h
        · simp at h
        · injection h with h
          subst h
          exact writes_cast _ _ hw
  | call fs args ih =>
    refine ⟨?_, fun h => by simp [Fine] at h⟩
    intro hf hs ts
    obtain ⟨fl, hfs⟩ := hf.resolve_right (by simp [Fine])
    have key : ∀ g ∈ fs, g.params.length ≤ args.len →
        (g.dots = false → g.params.length = args.len) →
        check g.params args ≠ .ub ∧ ∀ r, check g.params args = .ok r → Writes (opt r.2) := by
      intro g hg hle hd
      refine ih.list fl hs.2.2 g.params none hle ?_
      cases hdt : g.dots with
      | false => exact simpleAfter_len _ _ _ (by rw [hd hdt]; omega)
      | true => exact (hs.2.1 g hg).2 hdt
    constructor
    · intro h
      cases fs with
      | nil => exact absurd rfl hs.1
      | cons f fs =>
        simp only [check] at h
        obtain ⟨_, as, has⟩ := safe_valid args hs.2.2
        have hl := valids_len _ _ has
        rw [has] at h
        obtain ⟨⟨x1, x2⟩, hx⟩ := select_ok ts as (f :: fs) none
          (fun g hg h1 h2 => by rw [hl]; exact (hs.2.1 g hg).1 h1 h2)
        simp only [Res.bind, hx] at h
        cases x2 with
        | none => simp at h
        | some b =>
          simp only at h
          rcases select_some _ _ _ _ _ _ hx with h1 | ⟨h1, h2, h3⟩
          · simp at h1
          · obtain ⟨k1, k2, k3, _⟩ := consider_fit _ _ _ _ h3
            rw [hl] at k2 k3
            obtain ⟨_, _, h⟩ := node_ub args _ _ h (key b.1 h1 k2 k3).1
            simp at h
    · intro r h
      obtain ⟨g, l, ra, hg, hn, hle, hd, hra, rfl⟩ := check_call _ _ _ _ h
      obtain ⟨⟨c, hc⟩, _⟩ := (key g hg hle hd).2 ra hra
      refine writes_cast _ _ ⟨?_, _, rfl⟩
      simp only [opt, gen, hc, Res.bind]
      exact ⟨_, rfl⟩
  | nil =>
    refine ⟨fun h => by simp [Fine] at h, ?_⟩
    intro _ _ ps k _ _
    refine ⟨by simp [check], ?_⟩
    intro r h
    simp only [check, Res.ok.injEq] at h
    subst h
    exact ⟨⟨_, rfl⟩, _, rfl⟩
  | cons e r ihe ihr =>
    refine ⟨fun h => by simp [Fine] at h, ?_⟩
    intro hf hs ps k hle ha
    cases ps with
    | nil =>
      refine ⟨by simp [check], ?_⟩
      intro x h
      simp only [check, Res.ok.injEq] at h
      subst h
      exact rest_writes k _ hf ha
    | cons p ps =>
      obtain ⟨e1, e2⟩ := ihe.node (.inl hf.1) hs.1 [p]
      obtain ⟨r1, r2⟩ := ihr.list hf.2 hs.2 ps k
        (by simp only [List.length_cons, Expr.len] at hle; omega) ha
      constructor
      · intro h
        simp only [check] at h
        obtain ⟨_, _, h⟩ := node_ub e _ _ h e1
        obtain ⟨_, _, h⟩ := node_ub r _ _ h r1
        simp at h
      · intro x h
        simp only [check] at h
        obtain ⟨re, hre, h⟩ := bind_ok h
        obtain ⟨rr, hrr, h⟩ := bind_ok h
        injection h with h
        subst h
        exact writes_cons _ _ (e2 re hre) (r2 rr hrr)

end Verif.Shader.Types
