import Verif.Geom.HPoint
import Verif.Geom.BicubicProps

/-!
Lemmas about points with a weight
-/

namespace Verif.Geom.Bicubic

variable {K : Type} [Field K] [LinearOrder K] [IsStrictOrderedRing K]

theorem proj_eq (a : HP K) : a.proj = a.x / a.h := project_eq a.x a.h

omit [LinearOrder K] [IsStrictOrderedRing K] in
theorem add_h (a b : HP K) : (a.add b).h = a.h := rfl

theorem proj_add (a b : HP K) (ha : a.h ≠ 0) : (a.add b).proj = a.proj + b.proj := by
  rw [proj_eq, proj_eq, proj_eq]
  unfold HP.add
  rw [add_div]
  congr 1
  field_simp

theorem proj_scale (a : HP K) (c : K) : (a.scale c).proj = a.proj * c := by
  rw [proj_eq, proj_eq]
  unfold HP.scale
  ring

theorem proj_quot (a : HP K) (c : K) : (a.quot c).proj = a.proj / c := by
  rw [proj_eq, proj_eq]
  unfold HP.quot
  rw [div_div]

theorem halveH_proj (p : Fin 4 → HP K) (hp : ∀ i, (p i).h ≠ 0) (i : Fin 4) :
    ((halveH p).1 i).proj = (halve id fun k => (p k).proj).1 i ∧ ((halveH p).2 i).proj = (halve id fun k => (p k).proj).2 i ∧
    ((halveH p).1 i).h ≠ 0 ∧ ((halveH p).2 i).h ≠ 0 := by
  have h0 := hp 0
  have h1 := hp 1
  have h2 := hp 2
  have h3 := hp 3
  have n2 : (2 : K) ≠ 0 := two_ne_zero
  have n4 : (4 : K) ≠ 0 := four_ne_zero
  have q : ∀ (a : HP K) (c : K), (a.quot c).h = a.h * c := fun _ _ => rfl
  have ad : ∀ (a b : HP K), (a.add b).h = a.h := fun _ _ => rfl
  unfold halveH halve
  fin_cases i <;> simp [proj_add, proj_quot, q, ad, h0, h1, h2, h3]

theorem natSubdivH_proj (u : Bool) (p : Net (HP K)) (hp : ∀ i j, (p i j).h ≠ 0) (i j : Fin 4) :
    ((natSubdivH u p).1 i j).proj = (natSubdiv id u fun i j => (p i j).proj).1 i j ∧
    ((natSubdivH u p).2 i j).proj = (natSubdiv id u fun i j => (p i j).proj).2 i j ∧
    ((natSubdivH u p).1 i j).h ≠ 0 ∧ ((natSubdivH u p).2 i j).h ≠ 0 := by
  unfold natSubdivH natSubdiv
  cases u
  · exact halveH_proj (fun k => p k j) (fun k => hp k j) i
  · exact halveH_proj (p i) (hp i) j

theorem boundH_proj (big : K) (p : Net (HP K)) : boundH big p = patchBound big (fun i j => (p i j).proj) (fun _ _ => 1) := by
  unfold boundH patchBound points
  congr 1
  refine List.flatMap_congr fun i _ => List.map_congr_left fun j _ => ?_
  rw [project_eq, project_eq]
  beta_reduce
  rw [proj_eq, div_one]

/-! A map that keeps sums and multiples of good values keeps forward differences. -/

section
variable {T S : Type} (o : Ops K T) (o' : Ops K S) (f : T → S) (ok : T → Prop)

omit [Field K] [LinearOrder K] [IsStrictOrderedRing K] in
theorem map_comb (ha : ∀ a b, ok a → f (o.add a b) = o'.add (f a) (f b)) (hk : ∀ a b, ok a → ok (o.add a b))
    (hs : ∀ a c, f (o.scale a c) = o'.scale (f a) c) (hks : ∀ a c, ok a → ok (o.scale a c)) (hc : o.cast = id) (hc' : o'.cast = id)
    (p : Fin 4 → T) (hp : ∀ i, ok (p i)) (x y z w : K) :
    f (comb o p x y z w) = comb o' (fun i => f (p i)) x y z w ∧ ok (comb o p x y z w) := by
  unfold comb
  rw [hc, hc']
  simp only [id]
  have k1 := hks _ x (hp 0)
  have k2 := hk _ (o.scale (p 1) y) k1
  have k3 := hk _ (o.scale (p 2) z) k2
  exact ⟨by rw [ha _ _ k3, ha _ _ k2, ha _ _ k1, hs, hs, hs, hs], hk _ _ k3⟩

/-- The state of good values. -/
def Ok (s : FD T) : Prop := ok s.f ∧ ok s.df ∧ ok s.ddf ∧ ok s.dddf

/-- A state mapped. -/
def mapFD (s : FD T) : FD S := ⟨f s.f, f s.df, f s.ddf, f s.dddf⟩

omit [Field K] [LinearOrder K] [IsStrictOrderedRing K] in
theorem map_step (ha : ∀ a b, ok a → f (o.add a b) = o'.add (f a) (f b)) (hk : ∀ a b, ok a → ok (o.add a b)) (s : FD T) (h : Ok ok s) :
    mapFD f (step o s) = step o' (mapFD f s) ∧ Ok ok (step o s) := by
  obtain ⟨h1, h2, h3, h4⟩ := h
  unfold step mapFD Ok
  exact ⟨by rw [ha _ _ h1, ha _ _ h2, ha _ _ h3], hk _ _ h1, hk _ _ h2, hk _ _ h3, h4⟩

omit [LinearOrder K] [IsStrictOrderedRing K] in
theorem map_fdiff (ha : ∀ a b, ok a → f (o.add a b) = o'.add (f a) (f b)) (hk : ∀ a b, ok a → ok (o.add a b))
    (hs : ∀ a c, f (o.scale a c) = o'.scale (f a) c) (hks : ∀ a c, ok a → ok (o.scale a c)) (hc : o.cast = id) (hc' : o'.cast = id)
    (dt : K) (p : Fin 4 → T) (hp : ∀ i, ok (p i)) :
    mapFD f (fdiff o dt p) = fdiff o' dt (fun i => f (p i)) ∧ Ok ok (fdiff o dt p) := by
  have c := map_comb o o' f ok ha hk hs hks hc hc' p hp
  unfold fdiff mapFD Ok
  simp only
  exact ⟨by rw [(c _ _ _ _).1, (c _ _ _ _).1, (c _ _ _ _).1], hp 0, (c _ _ _ _).2, (c _ _ _ _).2, (c _ _ _ _).2⟩

omit [Field K] [LinearOrder K] [IsStrictOrderedRing K] in
theorem map_diceU (ha : ∀ a b, ok a → f (o.add a b) = o'.add (f a) (f b)) (hk : ∀ a b, ok a → ok (o.add a b)) (n : ℕ) :
    ∀ s : FD T, Ok ok s → (diceU o s n).map f = diceU o' (mapFD f s) n := by
  induction n with
  | zero => intro s _; rfl
  | succ n ih =>
    intro s h
    obtain ⟨e, h'⟩ := map_step o o' f ok ha hk s h
    unfold diceU
    rw [List.map_cons, ih _ h', e]
    rfl

omit [LinearOrder K] [IsStrictOrderedRing K] in
theorem map_dice (ha : ∀ a b, ok a → f (o.add a b) = o'.add (f a) (f b)) (hk : ∀ a b, ok a → ok (o.add a b))
    (hs : ∀ a c, f (o.scale a c) = o'.scale (f a) c) (hks : ∀ a c, ok a → ok (o.scale a c)) (hc : o.cast = id) (hc' : o'.cast = id)
    (uSize vSize : ℕ) (p : Net T) (hp : ∀ i j, ok (p i j)) :
    (dice o uSize vSize p).map f = dice o' uSize vSize (fun i j => f (p i j)) := by
  have go : ∀ (n : ℕ) (s : Fin 4 → FD T), (∀ k, Ok ok (s k)) →
      (diceV o uSize s n).map f = diceV o' uSize (fun k => mapFD f (s k)) n := by
    intro n
    induction n with
    | zero => intro s _; rfl
    | succ n ih =>
      intro s h
      obtain ⟨e, h'⟩ := map_fdiff o o' f ok ha hk hs hks hc hc' (1 / (uSize : K)) (fun k => (s k).f) (fun k => (h k).1)
      unfold diceV
      rw [List.map_append, map_diceU o o' f ok ha hk _ _ h', e, ih _ fun k => (map_step o o' f ok ha hk (s k) (h k)).2]
      congr 2
      funext k
      exact (map_step o o' f ok ha hk (s k) (h k)).1
  unfold dice
  rw [go _ _ fun k => (map_fdiff o o' f ok ha hk hs hks hc hc' _ (fun iv => p iv k) fun iv => hp iv k).2]
  congr 1
  funext k
  exact (map_fdiff o o' f ok ha hk hs hks hc hc' _ (fun iv => p iv k) fun iv => hp iv k).1

end

end Verif.Geom.Bicubic
