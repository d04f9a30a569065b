import Verif.Shader.TypesSpec

/-
Lemmas for property C78.
-/
set_option linter.unusedSectionVars false
set_option linter.unusedSimpArgs false

namespace Verif.Shader.Types

theorem bind_ok {α β : Type} {r : Res α} {f : α → Res β} {b : β} (h : r.bind f = .ok b) :
    ∃ a, r = .ok a ∧ f a = .ok b := by
  cases r with
  | ok a => exact ⟨a, rfl, h⟩
  | err => exact absurd h (by simp [Res.bind])
  | ub => exact absurd h (by simp [Res.bind])

theorem take_app (a st : List Kind) : take a (a ++ st) = some st := by
  induction a with
  | nil => rfl
  | cons k ks ih => simp [take, ih]

theorem run_app (a b : List Instr) (st st' : List Kind) (h : run a st = .ok st') :
    run (a ++ b) st = run b st' := by
  induction a generalizing st with
  | nil => simp only [run, Out.ok.injEq] at h; subst h; rfl
  | cons i is ih =>
    simp only [List.cons_append, run] at h ⊢
    split at h
    · rename_i hk
      rw [if_pos hk]
      cases he : effect i st with
      | none => rw [he] at h; simp at h
      | some s2 => rw [he] at h; exact ih s2 h
    · simp at h

theorem run_one (i : Instr) (st st' : List Kind) (hk : Known i) (h : effect i st = some st') :
    run [i] st = .ok st' := by
  simp [run, hk, h]

theorem castLoop_mem (c : Ty) (ts : List Ty) (r : Ty) (p : Nat) :
    castLoop c ts r p = r ∨ castLoop c ts r p ∈ ts := by
  induction ts generalizing r p with
  | nil => left; rfl
  | cons t ts ih =>
    simp only [castLoop]
    split
    · rcases ih t (pri c t) with h | h
      · right; rw [h]; simp
      · right; simp [h]
    · rcases ih r p with h | h
      · left; exact h
      · right; simp [h]

theorem findCast_mem (c : Ty) (ts : List Ty) (h : findCast c ts ≠ .nil) : findCast c ts ∈ ts := by
  unfold findCast at h ⊢
  split
  · assumption
  · rename_i hn
    rw [if_neg hn] at h
    rcases castLoop_mem c ts .nil 0 with h1 | h1
    · exact absurd h1 h
    · exact h1

theorem conv_cases (ts : List Ty) (t : Ty) (e : Expr) (r : Ty × Expr) (h : conv ts t e = .ok r) :
    (t ∈ ts ∧ r = (t, e)) ∨ (∃ u, u ∈ ts ∧ r = (u, .cast u e)) := by
  unfold conv at h
  split at h
  · rename_i hm
    left; exact ⟨hm, by injection h with h; exact h.symm⟩
  · split at h
    · simp at h
    · rename_i hn
      right
      exact ⟨_, findCast_mem _ _ hn, by injection h with h; exact h.symm⟩

theorem conv_fst (ts : List Ty) (t : Ty) (e : Expr) (r : Ty × Expr) (h : conv ts t e = .ok r) :
    r.1 ∈ ts := by
  rcases conv_cases ts t e r h with ⟨hm, rfl⟩ | ⟨u, hu, rfl⟩
  · exact hm
  · exact hu

theorem common_mem (a b : Ty) (ts : List Ty) (t : Ty) (h : common a b ts = some t) : t ∈ ts :=
  List.mem_of_find?_eq_some h

/-- The code of an expression leaves a value of the type which it says it has. -/
def Sound (e : Expr) (t : Ty) : Prop :=
  resType e = .ok t ∧ ∀ c, gen e = .ok c → (∀ i ∈ c, Known i) → ∀ st, run c st = .ok (slots t ++ st)

theorem pointLike_slots (t : Ty) (h : pointLike t = true) : slots t = [.p] := by
  cases t <;> simp_all [pointLike, slots]

theorem sound_cast (u t : Ty) (e : Expr) (h : Sound (opt e) t) : Sound (opt (.cast u e)) u := by
  obtain ⟨hr, hg⟩ := h
  show Sound (if resType (opt e) = .ok u then opt e else .cast u (opt e)) u
  split
  · rename_i hu
    have : t = u := by rw [hr] at hu; injection hu
    subst this
    exact ⟨hr, hg⟩
  · refine ⟨rfl, ?_⟩
    intro c hc hk st
    simp only [gen] at hc
    obtain ⟨v, hv, hc⟩ := bind_ok hc
    have hvt : t = v := by rw [hr] at hv; injection hv
    subst hvt
    obtain ⟨c1, hc1, hc⟩ := bind_ok hc
    split at hc
    · rename_i hp
      injection hc with hc
      subst hc
      rw [pointLike_slots u hp.2, ← pointLike_slots t hp.1]
      exact hg c1 hc1 hk st
    · injection hc with hc
      subst hc
      rw [run_app _ _ _ _ (hg c1 hc1 (fun i hi => hk i (by simp [hi])) st)]
      exact run_one _ _ _ (hk _ (by simp)) (by simp [effect, take_app])

theorem sound_conv (ts : List Ty) (t : Ty) (e : Expr) (r : Ty × Expr) (h : conv ts t e = .ok r)
    (hs : Sound (opt e) t) : ∃ u ∈ ts, Sound (opt r.2) u := by
  rcases conv_cases ts t e r h with ⟨hm, rfl⟩ | ⟨u, hu, rfl⟩
  · exact ⟨t, hm, hs⟩
  · exact ⟨u, hu, sound_cast u t e hs⟩

theorem settled_conv (ts us vs : List Ty) (t : Ty) (e : Expr) (r : Ty × Expr)
    (h : conv ts t e = .ok r) (hs : Settled vs r.2)
    (hi : ∀ ts : List Ty, Settled ts e → Settled us e) : Settled us e := by
  rcases conv_cases ts t e r h with ⟨hm, rfl⟩ | ⟨u, hu, rfl⟩
  · exact hi _ hs
  · exact hi _ hs

theorem valids_len (e : Expr) (as : List (List (Ty × Nat))) (h : valids e = .ok as) :
    as.length = e.len := by
  induction e generalizing as with
  | cons e r _ ih =>
    simp only [valids] at h
    obtain ⟨a, _, h⟩ := bind_ok h
    obtain ⟨bs, hb, h⟩ := bind_ok h
    injection h with h
    subst h
    simp [Expr.len, ih bs hb]
  | _ => simp only [valids, Res.ok.injEq] at h; subst h; rfl

theorem weigh_len (dots : Bool) (ps : List Ty) (as : List (List (Ty × Nat))) (w : Option Nat)
    (h : weigh dots ps as = .ok w) (hd : dots = false) : as.length ≤ ps.length := by
  induction ps generalizing as w with
  | nil =>
    cases as with
    | nil => simp
    | cons a as => simp [weigh, hd] at h
  | cons p ps ih =>
    cases as with
    | nil => simp
    | cons a as =>
      simp only [weigh] at h
      obtain ⟨x, hx, _⟩ := bind_ok h
      have := ih as x hx
      simp only [List.length_cons]
      omega

theorem consider_fit (ts : List Ty) (as : List (List (Ty × Nat))) (f : Func) (w : Nat)
    (h : consider ts as f = .fit w) :
    findCast f.ret ts ≠ .nil ∧ f.params.length ≤ as.length ∧
      (f.dots = false → f.params.length = as.length) ∧
      ∃ v, weigh f.dots f.params as = .ok (some v) ∧
        w = (if findCast f.ret ts = f.ret then 1 else 0) + v := by
  unfold consider at h
  split at h
  · simp at h
  · rename_i h1
    split at h
    · simp at h
    · rename_i h2
      split at h
      · rename_i v hv
        injection h with h
        have hd := weigh_len f.dots f.params as (some v) hv
        refine ⟨h2, ?_, ?_, v, hv, h.symm⟩
        · by_cases h0 : 0 < f.params.length
          · cases hdt : f.dots with
            | false =>
              refine Decidable.byContradiction fun hc => ?_
              exact h1 ⟨h0, .inl ⟨hdt, by omega⟩⟩
            | true =>
              refine Decidable.byContradiction fun hc => ?_
              exact h1 ⟨h0, .inr ⟨hdt, by omega⟩⟩
          · omega
        · intro hdt
          have := hd hdt
          by_cases h0 : 0 < f.params.length
          · refine Decidable.byContradiction fun hc => ?_
            exact h1 ⟨h0, .inl ⟨hdt, hc⟩⟩
          · omega
      · simp at h
      · simp at h

theorem select_some (ts : List Ty) (as : List (List (Ty × Nat))) (fs : List Func)
    (b0 : Option (Func × Nat)) (l : List Func) (b : Func × Nat)
    (h : select ts as fs b0 = .ok (l, some b)) :
    b0 = some b ∨ (b.1 ∈ fs ∧ b.1 ∈ l ∧ consider ts as b.1 = .fit b.2) := by
  induction fs generalizing b0 l with
  | nil =>
    simp only [select, Res.ok.injEq, Prod.mk.injEq] at h
    left; exact h.2
  | cons f fs ih =>
    simp only [select] at h
    split at h
    · rcases ih b0 l h with h1 | ⟨h1, h2, h3⟩
      · exact .inl h1
      · exact .inr ⟨by simp [h1], h2, h3⟩
    · obtain ⟨x, hx, h⟩ := bind_ok h
      injection h with h
      injection h with ha hb
      obtain ⟨x1, x2⟩ := x
      simp only at ha hb
      subst hb
      rcases ih b0 x1 hx with h1 | ⟨h1, h2, h3⟩
      · exact .inl h1
      · exact .inr ⟨by simp [h1], by rw [← ha]; simp [h2], h3⟩
    · rename_i w hw
      obtain ⟨x, hx, h⟩ := bind_ok h
      injection h with h
      injection h with ha hb
      obtain ⟨x1, x2⟩ := x
      simp only at ha hb
      subst hb
      rcases ih _ x1 hx with h1 | ⟨h1, h2, h3⟩
      · cases b0 with
        | none =>
          simp only [Option.some.injEq] at h1
          subst h1
          exact .inr ⟨by simp, by rw [← ha]; simp, hw⟩
        | some g =>
          obtain ⟨g, v⟩ := g
          simp only at h1
          split at h1
          · simp only [Option.some.injEq] at h1
            subst h1
            exact .inr ⟨by simp, by rw [← ha]; simp, hw⟩
          · exact .inl h1
      · exact .inr ⟨by simp [h1], by rw [← ha]; simp [h2], h3⟩
    · simp at h

/-- What is known about a call which was checked. -/
theorem check_call (ts : List Ty) (fs : List Func) (args : Expr) (r : Ty × Expr)
    (h : check ts (.call fs args) = .ok r) :
    ∃ g l ra, g ∈ fs ∧ findCast g.ret ts ≠ .nil ∧ g.params.length ≤ args.len ∧
      (g.dots = false → g.params.length = args.len) ∧ check g.params args = .ok ra ∧
      r = (g.ret, .cast (findCast g.ret ts) (.call (g :: l) ra.2)) := by
  cases fs with
  | nil => simp [check] at h
  | cons f fs =>
    simp only [check] at h
    obtain ⟨as, has, h⟩ := bind_ok h
    obtain ⟨x, hx, h⟩ := bind_ok h
    obtain ⟨x1, x2⟩ := x
    cases x2 with
    | none => simp at h
    | some b =>
      simp only at h
      obtain ⟨ra, hra, h⟩ := bind_ok h
      injection h with h
      rcases select_some _ _ _ _ _ _ hx with h1 | ⟨h1, h2, h3⟩
      · simp at h1
      · obtain ⟨c1, c2, c3, _⟩ := consider_fit _ _ _ _ h3
        have hl := valids_len _ _ has
        rw [hl] at c2 c3
        cases x1 with
        | nil => simp at h2
        | cons y ys =>
          refine ⟨b.1, ys, ra, h1, c1, c2, c3, hra, ?_⟩
          rw [← h]
          simp

theorem gives_fst (e : Expr) (t : Ty) (r : Ty × Expr) (hf : Fine .expr e)
    (h : check [t] e = .ok r) (hg : Gives t r.2) : r.1 = t := by
  have conv1 : ∀ (u : Ty) (x : Expr), conv [t] u x = .ok r → r.1 = t := by
    intro u x hx
    have := conv_fst _ _ _ _ hx
    simpa using this
  induction e generalizing t r with
  | num => exact conv1 _ _ h
  | str => exact conv1 _ _ h
  | var u => exact conv1 _ _ h
  | elem u i ih =>
    simp only [check] at h
    obtain ⟨x, hx, h⟩ := bind_ok h
    split at h
    · simp at h
    · exact conv1 _ _ h
  | assign u e ih =>
    simp only [check] at h
    obtain ⟨x, hx, h⟩ := bind_ok h
    split at h
    · rename_i hne
      injection h with h
      subst h
      obtain ⟨hu, hg⟩ := hg
      subst hu
      refine absurd (ih _ x hf.2 hx hg ?_) hne
      intro v y hv
      have := conv_fst _ _ _ _ hv
      simpa using this
    · exact conv1 _ _ h
  | cond c a b _ _ _ =>
    simp only [check] at h
    obtain ⟨_, _, h⟩ := bind_ok h
    obtain ⟨_, _, h⟩ := bind_ok h
    obtain ⟨_, _, h⟩ := bind_ok h
    split at h
    · simp at h
    · rename_i v hv
      obtain ⟨_, _, h⟩ := bind_ok h
      obtain ⟨_, _, h⟩ := bind_ok h
      injection h with h
      subst h
      have := common_mem _ _ _ _ hv
      simpa using this
  | cast u e ih =>
    simp only [check] at h
    obtain ⟨x, hx, h⟩ := bind_ok h
    exact conv1 _ _ h
  | triple a b c _ _ _ =>
    simp only [check] at h
    obtain ⟨_, _, h⟩ := bind_ok h
    obtain ⟨_, _, h⟩ := bind_ok h
    obtain ⟨_, _, h⟩ := bind_ok h
    exact conv1 _ _ h
  | hex args _ =>
    simp only [check] at h
    obtain ⟨_, _, h⟩ := bind_ok h
    split at h
    · rename_i hm
      injection h with h
      subst h
      simpa using hm
    · split at h
      · simp at h
      · rename_i hn
        injection h with h
        subst h
        have := findCast_mem _ _ hn
        simpa using this
  | call fs args _ =>
    obtain ⟨g, l, ra, _, _, _, _, _, rfl⟩ := check_call _ _ _ _ h
    exact hg
  | rel o a b _ _ => simp [Fine] at hf
  | logic o a b _ _ => simp [Fine] at hf
  | not e _ => simp [Fine] at hf
  | nil => simp [Fine] at hf
  | cons e r _ _ => simp [Fine] at hf

theorem simpleAfter_len (k : Option Ty) (n : Nat) (e : Expr) (h : e.len ≤ n) :
    SimpleAfter k n e := by
  induction e generalizing n with
  | cons e r _ ih =>
    cases n with
    | zero => simp [Expr.len] at h
    | succ n => exact ih n (by simp only [Expr.len] at h; omega)
  | _ => cases n <;> simp [SimpleAfter]

theorem prune_len (e : Expr) : (prune e).len = e.len := by
  induction e with
  | cons e r _ ih => simp [prune, Expr.len, ih]
  | call fs args _ =>
    simp only [prune]
    split <;> rfl
  | _ => rfl

theorem simple_prune (k : Option Ty) (e : Expr) (h : Simple k (prune e)) : Simple k e := by
  cases e with
  | call fs args =>
    simp only [prune] at h
    split at h <;> exact absurd h (by simp [Simple])
  | cons e r => exact absurd h (by simp [prune, Simple])
  | _ => exact h

theorem simpleAfter_prune (k : Option Ty) (e : Expr) (hf : Fine .list e)
    (h : SimpleAfter k 0 (prune e)) : SimpleAfter k 0 e := by
  induction e with
  | cons e r _ ih => exact ⟨simple_prune k e h.1, ih hf.2 h.2⟩
  | nil => trivial
  | _ => simp [Fine] at hf

theorem check_len (ps : List Ty) (e : Expr) (r : Ty × Expr) (hf : Fine .list e)
    (h : check ps e = .ok r) : r.2.len = e.len := by
  induction e generalizing ps r with
  | nil =>
    simp only [check, Res.ok.injEq] at h
    subst h
    rfl
  | cons e x _ ih =>
    cases ps with
    | nil =>
      simp only [check, Res.ok.injEq] at h
      subst h
      exact prune_len _
    | cons p ps =>
      simp only [check] at h
      obtain ⟨re, _, h⟩ := bind_ok h
      obtain ⟨rr, hrr, h⟩ := bind_ok h
      injection h with h
      subst h
      simp [Expr.len, ih ps rr hf.2 hrr]
  | _ => simp [Fine] at hf

end Verif.Shader.Types
