import Verif.Core.SamplerLemmas
import Verif.Core.HitTestProps

/-!
# C54: the samples of a pixel are spread evenly

"The pixel is broken up into a NxM grid of subpixels and each of these rectangles contains exactly one sample point. …
If you divide the pixel into N*M columns or rows then exactly one sample is in each column and one in each row."
(libs/core/multijitter.cpp:44-50)
-/

namespace Verif.Core.Sampler

/-! ## Specification -/

/-- The sample numbered `iy * xs + ix` of a pattern is in the subpixel `(ix, iy)`, and each of the `xs * ys` columns and
rows contains exactly one sample. -/
structure Stratified (xs ys : Nat) (p : Nat → ℚ × ℚ) : Prop where
  sub : ∀ ix iy : Nat, ix < xs → iy < ys →
    ((ix : ℚ) / xs ≤ (p (iy * xs + ix)).1 ∧ (p (iy * xs + ix)).1 < ((ix : ℚ) + 1) / xs) ∧
    ((iy : ℚ) / ys ≤ (p (iy * xs + ix)).2 ∧ (p (iy * xs + ix)).2 < ((iy : ℚ) + 1) / ys)
  column : ∀ c : Nat, c < xs * ys → ∃! w : Nat, w < xs * ys ∧
    (c : ℚ) / (xs * ys : Nat) ≤ (p w).1 ∧ (p w).1 < ((c : ℚ) + 1) / (xs * ys : Nat)
  row : ∀ c : Nat, c < xs * ys → ∃! w : Nat, w < xs * ys ∧
    (c : ℚ) / (xs * ys : Nat) ≤ (p w).2 ∧ (p w).2 < ((c : ℚ) + 1) / (xs * ys : Nat)

/-- Sample `i` of `n` is in the `i`-th interval. -/
def Stratified1 (n : Nat) (p : Nat → ℚ) : Prop := ∀ i : Nat, i < n → (i : ℚ) / n ≤ p i ∧ p i < ((i : ℚ) + 1) / n

/-- Every number below `n` comes exactly once. -/
def Shuffled (n : Nat) (p : Nat → Nat) : Prop := (∀ i, i < n → p i < n) ∧ ∀ v, v < n → ∃! i, i < n ∧ p i = v

/-- All the patterns of the tables are good. -/
def GoodTables (xs ys : Nat) (T : Tables) : Prop :=
  ∀ c, c < cacheSize → Stratified xs ys (fun w => T.p2 (c * (xs * ys) + w)) ∧
    Stratified1 (xs * ys) (fun i => T.p1 (c * (xs * ys) + i)) ∧
    Shuffled (xs * ys) (fun i => T.sh (c * (xs * ys) + i))

/-! ## One pattern -/

lemma cell_iff {X Y xi ix c : Nat} {r : ℚ} (hX : 0 < X) (hY : 0 < Y) (hr : 0 ≤ r ∧ r < 1) :
    (c : ℚ) / (X * Y : Nat) ≤ ((xi : ℚ) + r) * (1 / (X * Y : Nat)) + ix * (1 / X) ∧
      ((xi : ℚ) + r) * (1 / (X * Y : Nat)) + ix * (1 / X) < ((c : ℚ) + 1) / (X * Y : Nat) ↔ c = ix * Y + xi := by
  have hXq : (0 : ℚ) < X := by exact_mod_cast hX
  have hYq : (0 : ℚ) < Y := by exact_mod_cast hY
  have e : ((xi : ℚ) + r) * (1 / (X * Y : Nat)) + ix * (1 / X) = (xi + r + ix * Y) / (X * Y : Nat) := by
    push_cast; field_simp
  have hn : (0 : ℚ) < (X * Y : Nat) := by push_cast; positivity
  rw [e, div_le_div_iff_of_pos_right hn, div_lt_div_iff_of_pos_right hn]
  constructor
  · rintro ⟨h1, h2⟩
    have a1 : (c : ℚ) < ix * Y + xi + 1 := by linarith
    have a2 : ((ix : ℚ) * Y + xi) < c + 1 := by linarith
    have b1 : c < ix * Y + xi + 1 := by exact_mod_cast a1
    have b2 : ix * Y + xi < c + 1 := by exact_mod_cast a2
    omega
  · rintro rfl
    push_cast
    exact ⟨by linarith [hr.1], by linarith [hr.2]⟩

lemma sub_bounds {X Y xi ix : Nat} {r : ℚ} (hX : 0 < X) (hY : 0 < Y) (hr : 0 ≤ r ∧ r < 1) (hxi : xi < Y) :
    (ix : ℚ) / X ≤ ((xi : ℚ) + r) * (1 / (X * Y : Nat)) + ix * (1 / X) ∧
      ((xi : ℚ) + r) * (1 / (X * Y : Nat)) + ix * (1 / X) < ((ix : ℚ) + 1) / X := by
  have hXq : (0 : ℚ) < X := by exact_mod_cast hX
  have hYq : (0 : ℚ) < Y := by exact_mod_cast hY
  have hx0 : (0 : ℚ) ≤ xi := Nat.cast_nonneg _
  have hx1 : (xi : ℚ) + 1 ≤ Y := by exact_mod_cast hxi
  have hn : (0 : ℚ) < (X * Y : Nat) := by push_cast; positivity
  have e : ((xi : ℚ) + r) * (1 / (X * Y : Nat)) + ix * (1 / X) = ix / X + (xi + r) / (X * Y : Nat) := by ring
  have e2 : ((ix : ℚ) + 1) / X = ix / X + Y / (X * Y : Nat) := by push_cast; field_simp
  rw [e, e2]
  constructor
  · have : 0 ≤ ((xi : ℚ) + r) / (X * Y : Nat) := div_nonneg (by linarith [hr.1]) hn.le
    linarith
  · have : ((xi : ℚ) + r) / (X * Y : Nat) < Y / (X * Y : Nat) := by
      rw [div_lt_div_iff_of_pos_right hn]; linarith [hr.2]
    linarith

lemma stratified_of {X Y : Nat} (hX : 0 < X) (hY : 0 < Y) (p : Nat → ℚ × ℚ) (a : Nat → Nat)
    (hrow : ∀ iy, iy < Y → ∃ π σ, PermOn X π σ ∧ ∀ ix, ix < X → a (2 * (iy * X + ix) + 1) = π ix)
    (hcol : ∀ ix, ix < X → ∃ π σ, PermOn Y π σ ∧ ∀ iy, iy < Y → a (2 * (iy * X + ix)) = π iy)
    (hp : ∀ iy ix, iy < Y → ix < X → ∃ r r' : ℚ, (0 ≤ r ∧ r < 1) ∧ (0 ≤ r' ∧ r' < 1) ∧
      p (iy * X + ix) = (((a (2 * (iy * X + ix)) : ℚ) + r) * (1 / (X * Y : Nat)) + ix * (1 / X),
        ((a (2 * (iy * X + ix) + 1) : ℚ) + r') * (1 / (X * Y : Nat)) + iy * (1 / Y))) :
    Stratified X Y p := by
  have hxlt : ∀ iy ix, iy < Y → ix < X → a (2 * (iy * X + ix)) < Y := by
    intro iy ix h1 h2
    obtain ⟨π, σ, hP, hv⟩ := hcol ix h2
    rw [hv iy h1]; exact hP.lt iy h1
  have hylt : ∀ iy ix, iy < Y → ix < X → a (2 * (iy * X + ix) + 1) < X := by
    intro iy ix h1 h2
    obtain ⟨π, σ, hP, hv⟩ := hrow iy h1
    rw [hv ix h2]; exact hP.lt ix h2
  have hsplit : ∀ w, w < X * Y → ∃ iy ix, iy < Y ∧ ix < X ∧ w = iy * X + ix := by
    intro w hw
    refine ⟨w / X, w % X, ?_, Nat.mod_lt _ hX, ?_⟩
    · exact Nat.div_lt_of_lt_mul hw
    · rw [Nat.mul_comm]; exact (Nat.div_add_mod w X).symm
  constructor
  · intro ix iy hix hiy
    obtain ⟨r, r', hr, hr', e⟩ := hp iy ix hiy hix
    rw [e]
    refine ⟨sub_bounds hX hY hr (hxlt iy ix hiy hix), ?_⟩
    have := sub_bounds (ix := iy) hY hX hr' (hylt iy ix hiy hix)
    rw [Nat.mul_comm Y X] at this
    exact this
  · intro c hc
    have hcx : c / Y < X := by rw [Nat.mul_comm] at hc; exact Nat.div_lt_of_lt_mul hc
    have hcy : c % Y < Y := Nat.mod_lt _ hY
    obtain ⟨π, σ, hP, hv⟩ := hcol (c / Y) hcx
    refine ⟨σ (c % Y) * X + c / Y, ⟨index_lt hcx (hP.lt' _ hcy), ?_⟩, ?_⟩
    · obtain ⟨r, r', hr, hr', e⟩ := hp (σ (c % Y)) (c / Y) (hP.lt' _ hcy) hcx
      rw [e]
      refine (cell_iff hX hY hr).mpr ?_
      rw [hv _ (hP.lt' _ hcy), hP.right _ hcy, Nat.mul_comm]
      exact (Nat.div_add_mod c Y).symm
    · rintro w ⟨hw, hcw⟩
      obtain ⟨iy, ix, hiy, hix, rfl⟩ := hsplit w hw
      obtain ⟨r, r', hr, hr', e⟩ := hp iy ix hiy hix
      rw [e] at hcw
      have hce := (cell_iff hX hY hr).mp hcw
      have hdec : c = (c / Y) * Y + c % Y := by rw [Nat.mul_comm]; exact (Nat.div_add_mod c Y).symm
      obtain ⟨q1, q2⟩ := index_inj hcy (hxlt iy ix hiy hix) (hdec.symm.trans hce)
      subst q1
      rw [hv iy hiy] at q2
      rw [q2, hP.left iy hiy]
  · intro c hc
    have hcx : c / X < Y := Nat.div_lt_of_lt_mul hc
    have hcy : c % X < X := Nat.mod_lt _ hX
    obtain ⟨π, σ, hP, hv⟩ := hrow (c / X) hcx
    refine ⟨c / X * X + σ (c % X), ⟨index_lt (hP.lt' _ hcy) hcx, ?_⟩, ?_⟩
    · obtain ⟨r, r', hr, hr', e⟩ := hp (c / X) (σ (c % X)) hcx (hP.lt' _ hcy)
      rw [e, Nat.mul_comm X Y]
      refine (cell_iff hY hX hr').mpr ?_
      rw [hv _ (hP.lt' _ hcy), hP.right _ hcy, Nat.mul_comm]
      exact (Nat.div_add_mod c X).symm
    · rintro w ⟨hw, hcw⟩
      obtain ⟨iy, ix, hiy, hix, rfl⟩ := hsplit w hw
      obtain ⟨r, r', hr, hr', e⟩ := hp iy ix hiy hix
      rw [e, Nat.mul_comm X Y] at hcw
      have hce := (cell_iff hY hX hr').mp hcw
      have hdec : c = (c / X) * X + c % X := by rw [Nat.mul_comm]; exact (Nat.div_add_mod c X).symm
      obtain ⟨q1, q2⟩ := index_inj hcy (hylt iy ix hiy hix) (hdec.symm.trans hce)
      subst q1
      rw [hv ix hix] at q2
      rw [q2, hP.left ix hix]

lemma setup2d_spec {ρ : Nat → ℚ} (hρ : ∀ k, 0 ≤ ρ k ∧ ρ k < 1) {X Y : Nat} (hX : 0 < X) (hY : 0 < Y)
    {size offset : Nat} (hs : offset + X * Y ≤ size) (T : Tables) :
    ∃ T', setup2d ρ X Y size offset T = some T' ∧ Stratified X Y (fun w => T'.p2 (offset + w)) ∧
      (∀ j, j < offset ∨ offset + X * Y ≤ j → T'.p2 j = T.p2 j ∧ T'.p1 j = T.p1 j) ∧ T'.sh = T.sh := by
  unfold setup2d
  by_cases h1 : X = 1 ∧ Y = 1
  · rw [if_pos h1]
    obtain ⟨rfl, rfl⟩ := h1
    rw [put_lt _ _ (by omega), Option.bind_some, put_lt _ _ (by omega), Option.bind_some]
    refine ⟨_, rfl, ?_, ?_, rfl⟩
    · have hval : ∀ w, w = 0 → (if offset + w = offset then (ρ T.k, ρ (T.k + 1)) else T.p2 (offset + w)) =
          (ρ T.k, ρ (T.k + 1)) := by rintro w rfl; rw [if_pos (by omega)]
      constructor
      · intro ix iy hix hiy
        have : ix = 0 := by omega
        have : iy = 0 := by omega
        subst ix iy
        dsimp only
        rw [hval _ (by omega)]
        have := hρ T.k; have := hρ (T.k + 1)
        norm_num; tauto
      · intro c hc
        have : c = 0 := by omega
        subst c
        refine ⟨0, ⟨by norm_num, ?_⟩, fun w hw => by have := hw.1; omega⟩
        dsimp only
        rw [hval _ rfl]
        have := hρ T.k
        norm_num; tauto
      · intro c hc
        have : c = 0 := by omega
        subst c
        refine ⟨0, ⟨by norm_num, ?_⟩, fun w hw => by have := hw.1; omega⟩
        dsimp only
        rw [hval _ rfl]
        have := hρ (T.k + 1)
        norm_num; tauto
    · intro j hj
      constructor
      · show (if _ then _ else _) = _
        rw [if_neg (by omega)]
      · show (if _ then _ else _) = _
        rw [if_neg (by omega)]
  · rw [if_neg h1]
    obtain ⟨a, k', e, hrow, hcol⟩ := multiJitter_spec hρ X Y T.k
    dsimp only
    rw [e, Option.bind_some]
    dsimp only
    let P : Tables → Nat → Prop := fun S w => ∀ iy ix, iy < Y → ix < X → iy * X + ix < w →
      ∃ r r' : ℚ, (0 ≤ r ∧ r < 1) ∧ (0 ≤ r' ∧ r' < 1) ∧
      S.p2 (offset + (iy * X + ix)) = (((a (2 * (iy * X + ix)) : ℚ) + r) * (1 / (X * Y : Nat)) + ix * (1 / X),
        ((a (2 * (iy * X + ix) + 1) : ℚ) + r') * (1 / (X * Y : Nat)) + iy * (1 / Y))
    let F : Tables → Prop := fun S => (∀ j, j < offset ∨ offset + X * Y ≤ j → S.p2 j = T.p2 j) ∧ S.p1 = T.p1 ∧
      S.sh = T.sh
    obtain ⟨s, es, hw, hP, hF⟩ := loop_inv
      (fun (s : Tables × Nat) iy => loop X (fun (s : Tables × Nat) ix =>
        (get (X * Y * 2) a (2 * s.2)).bind fun xindex =>
          (get (X * Y * 2) a (2 * s.2 + 1)).bind fun yindex =>
            (put size s.1.p2 (offset + s.2)
              (((xindex : ℚ) + ρ s.1.k) * (1 / (X * Y : Nat)) + ix * (1 / X),
               ((yindex : ℚ) + ρ (s.1.k + 1)) * (1 / (X * Y : Nat)) + iy * (1 / Y))).bind fun p2 =>
              some ({ s.1 with p2 := p2, k := s.1.k + 2 }, s.2 + 1)) s)
      (fun i s => s.2 = i * X ∧ P s.1 s.2 ∧ F s.1) Y
      (by
        intro iy hiy s hs0
        obtain ⟨s', e', h'⟩ := loop_inv
          (fun (s : Tables × Nat) ix =>
            (get (X * Y * 2) a (2 * s.2)).bind fun xindex =>
            (get (X * Y * 2) a (2 * s.2 + 1)).bind fun yindex =>
            (put size s.1.p2 (offset + s.2)
              (((xindex : ℚ) + ρ s.1.k) * (1 / (X * Y : Nat)) + ix * (1 / X),
               ((yindex : ℚ) + ρ (s.1.k + 1)) * (1 / (X * Y : Nat)) + iy * (1 / Y))).bind fun p2 =>
              some ({ s.1 with p2 := p2, k := s.1.k + 2 }, s.2 + 1))
          (fun i s => s.2 = iy * X + i ∧ P s.1 s.2 ∧ F s.1) X
          (by
            rintro ix hix ⟨S, w⟩ ⟨h1, h2, h3⟩
            dsimp only at h1 h2 h3 ⊢
            subst h1
            have hl := index_lt hix hiy
            rw [get_lt _ (by omega), Option.bind_some, get_lt _ (by omega), Option.bind_some, put_lt _ _ (by omega),
              Option.bind_some]
            refine ⟨_, rfl, rfl, ?_, ?_, h3.2.1, h3.2.2⟩
            · intro jy jx hjy hjx hlt
              by_cases hEq : jy * X + jx = iy * X + ix
              · obtain ⟨q1, q2⟩ := index_inj hjx hix hEq
                subst q1 q2
                refine ⟨ρ S.k, ρ (S.k + 1), hρ _, hρ _, ?_⟩
                show (if _ then _ else _) = _
                rw [if_pos rfl]
              · obtain ⟨r, r', hr, hr', hv⟩ := h2 jy jx hjy hjx (by dsimp only at hlt; omega)
                refine ⟨r, r', hr, hr', ?_⟩
                show (if _ then _ else _) = _
                rw [if_neg (by omega)]
                exact hv
            · intro j hj
              show (if _ then _ else _) = _
              rw [if_neg (by omega)]
              exact h3.1 j hj)
          s hs0
        refine ⟨s', e', ?_, h'.2⟩
        rw [h'.1]; ring)
      ({ T with k := k' }, 0) ⟨by simp, fun _ _ _ _ h => absurd h (by omega), fun _ _ => rfl, rfl, rfl⟩
    refine ⟨s.1, ?_, ?_, ?_, hF.2.2⟩
    · rw [es]; rfl
    · refine stratified_of hX hY _ a hrow hcol ?_
      intro iy ix hiy hix
      refine hP iy ix hiy hix ?_
      rw [hw]
      have := index_lt hix hiy
      rwa [Nat.mul_comm X Y] at this
    · intro j hj
      exact ⟨hF.1 j hj, by rw [hF.2.1]⟩

lemma setup1d_spec {ρ : Nat → ℚ} (hρ : ∀ k, 0 ≤ ρ k ∧ ρ k < 1) {X Y : Nat} (hX : 0 < X) (hY : 0 < Y)
    {size offset : Nat} (hs : offset + X * Y ≤ size) (T : Tables) :
    ∃ T', setup1d ρ X Y size offset T = some T' ∧ Stratified1 (X * Y) (fun i => T'.p1 (offset + i)) ∧
      (∀ j, j < offset ∨ offset + X * Y ≤ j → T'.p1 j = T.p1 j) ∧ T'.p2 = T.p2 ∧ T'.sh = T.sh := by
  unfold setup1d
  dsimp only
  have hn : (0 : ℚ) < (X * Y : Nat) := by
    have : 0 < X * Y := Nat.mul_pos hX hY
    exact_mod_cast this
  generalize X * Y = n at *
  obtain ⟨s, es, h1, h2, h3⟩ := loop_inv
    (fun (s : Arr ℚ × ℚ) i => (put size s.1 (offset + i) (s.2 + 1 / (n : ℚ) * ρ T.k)).bind
      fun p1 => some (p1, s.2 + 1 / (n : ℚ)))
    (fun i s => s.2 = i / (n : ℚ) ∧ (∀ j : Nat, j < i → s.1 (offset + j) = j / (n : ℚ) + 1 / (n : ℚ) * ρ T.k) ∧
      ∀ j, j < offset ∨ offset + n ≤ j → s.1 j = T.p1 j) n
    (by
      rintro i hi ⟨p1, v⟩ ⟨q1, q2, q3⟩
      dsimp only at q1 q2 q3 ⊢
      rw [put_lt _ _ (by omega), Option.bind_some]
      refine ⟨_, rfl, ?_, ?_, ?_⟩
      · dsimp only; rw [q1]; push_cast; ring
      · intro j hj
        by_cases hEq : j = i
        · subst hEq
          show (if _ then _ else _) = _
          rw [if_pos rfl, q1]
        · show (if _ then _ else _) = _
          rw [if_neg (by omega)]
          exact q2 j (by omega)
      · intro j hj
        show (if _ then _ else _) = _
        rw [if_neg (by omega)]
        exact q3 j hj)
    (T.p1, 0) ⟨by simp, fun j h => by omega, fun _ _ => rfl⟩
  rw [es, Option.bind_some]
  refine ⟨_, rfl, ?_, h3, rfl, rfl⟩
  intro i hi
  dsimp only
  rw [h2 i hi]
  have hr := hρ T.k
  have e : (i : ℚ) / n + 1 / n * ρ T.k = (i + ρ T.k) / n := by ring
  rw [e, div_le_div_iff_of_pos_right hn, div_lt_div_iff_of_pos_right hn]
  exact ⟨by linarith [hr.1], by linarith [hr.2]⟩

lemma setupShuffled_spec {ρ : Nat → ℚ} (hρ : ∀ k, 0 ≤ ρ k ∧ ρ k < 1) {X Y : Nat}
    {size offset : Nat} (hs : offset + X * Y ≤ size) (T : Tables) :
    ∃ T', setupShuffled ρ X Y size offset T = some T' ∧ Shuffled (X * Y) (fun i => T'.sh (offset + i)) ∧
      (∀ j, j < offset ∨ offset + X * Y ≤ j → T'.sh j = T.sh j) ∧ T'.p2 = T.p2 ∧ T'.p1 = T.p1 := by
  unfold setupShuffled
  dsimp only
  generalize X * Y = n at *
  obtain ⟨sh, es, h1, h2⟩ := loop_inv (fun (sh : Arr Nat) i => put size sh (offset + i) i)
    (fun i sh => (∀ j, j < i → sh (offset + j) = j) ∧ ∀ j, j < offset ∨ offset + n ≤ j → sh j = T.sh j) n
    (by
      rintro i hi sh ⟨q1, q2⟩
      rw [put_lt _ _ (by omega)]
      refine ⟨_, rfl, ?_, ?_⟩
      · intro j hj
        by_cases hEq : j = i
        · subst hEq; show (if _ then _ else _) = _; rw [if_pos rfl]
        · show (if _ then _ else _) = _
          rw [if_neg (by omega)]; exact q1 j (by omega)
      · intro j hj
        show (if _ then _ else _) = _
        rw [if_neg (by omega)]; exact q2 j hj)
    T.sh ⟨fun j h => by omega, fun _ _ => rfl⟩
  rw [es, Option.bind_some]
  obtain ⟨a', k', π, σ, e, hp, hin, hout⟩ := shuffle_spec hρ size (fun j => offset + j) n (fun i hi => by omega)
    (fun i j _ _ h => by omega) n (le_refl _) sh T.k
  rw [e, Option.bind_some]
  refine ⟨_, rfl, ?_, ?_, rfl, rfl⟩
  · have hv : ∀ i, i < n → a' (offset + i) = π i := fun i hi => (hin i hi).trans (h1 _ (hp.lt i hi))
    constructor
    · intro i hi; dsimp only; rw [hv i hi]; exact hp.lt i hi
    · intro v hv'
      obtain ⟨i, ⟨hi, hEq⟩, hu⟩ := hp.existsUnique v hv'
      refine ⟨i, ⟨hi, (hv i hi).trans hEq⟩, ?_⟩
      rintro j ⟨hj, hj'⟩
      exact hu j ⟨hj, (hv j hj).symm.trans hj'⟩
  · intro j hj
    dsimp only
    rw [hout j (fun i hi => by omega)]
    exact h2 j hj

lemma Stratified.congr {X Y : Nat} {p p' : Nat → ℚ × ℚ} (h : Stratified X Y p) (he : ∀ w, w < X * Y → p' w = p w) :
    Stratified X Y p' := by
  constructor
  · intro ix iy hix hiy
    rw [he _ (index_lt hix hiy)]
    exact h.sub ix iy hix hiy
  · intro c hc
    obtain ⟨w, ⟨hw, hv⟩, hu⟩ := h.column c hc
    refine ⟨w, ⟨hw, by rw [he w hw]; exact hv⟩, ?_⟩
    rintro w' ⟨hw', hv'⟩
    rw [he w' hw'] at hv'
    exact hu w' ⟨hw', hv'⟩
  · intro c hc
    obtain ⟨w, ⟨hw, hv⟩, hu⟩ := h.row c hc
    refine ⟨w, ⟨hw, by rw [he w hw]; exact hv⟩, ?_⟩
    rintro w' ⟨hw', hv'⟩
    rw [he w' hw'] at hv'
    exact hu w' ⟨hw', hv'⟩

lemma Shuffled.congr {n : Nat} {p p' : Nat → Nat} (h : Shuffled n p) (he : ∀ i, i < n → p' i = p i) : Shuffled n p' := by
  constructor
  · intro i hi; rw [he i hi]; exact h.1 i hi
  · intro v hv
    obtain ⟨w, ⟨hw, hv⟩, hu⟩ := h.2 v hv
    refine ⟨w, ⟨hw, by rw [he w hw]; exact hv⟩, ?_⟩
    rintro w' ⟨hw', hv'⟩
    rw [he w' hw'] at hv'
    exact hu w' ⟨hw', hv'⟩

lemma setupJitterPattern_spec {ρ : Nat → ℚ} (hρ : ∀ k, 0 ≤ ρ k ∧ ρ k < 1) {X Y : Nat} (hX : 0 < X) (hY : 0 < Y)
    {size offset : Nat} (hs : offset + X * Y ≤ size) (T : Tables) :
    ∃ T', setupJitterPattern ρ X Y size offset T = some T' ∧ Stratified X Y (fun w => T'.p2 (offset + w)) ∧
      Stratified1 (X * Y) (fun i => T'.p1 (offset + i)) ∧ Shuffled (X * Y) (fun i => T'.sh (offset + i)) ∧
      (∀ j, j < offset ∨ offset + X * Y ≤ j → T'.p2 j = T.p2 j ∧ T'.p1 j = T.p1 j ∧ T'.sh j = T.sh j) := by
  obtain ⟨T1, e1, a1, b1, c1⟩ := setup2d_spec hρ hX hY hs T
  obtain ⟨T2, e2, a2, b2, c2, d2⟩ := setup1d_spec hρ hX hY hs T1
  obtain ⟨T3, e3, a3, b3, c3, d3⟩ := setupShuffled_spec hρ hs T2
  unfold setupJitterPattern
  rw [e1, Option.bind_some, e2, Option.bind_some]
  refine ⟨T3, e3, ?_, ?_, a3, ?_⟩
  · rw [c3, c2]; exact a1
  · rw [d3]; exact a2
  · intro j hj
    refine ⟨by rw [c3, c2]; exact (b1 j hj).1, by rw [d3, b2 j hj]; exact (b1 j hj).2, ?_⟩
    rw [b3 j hj, d2, c1]

/-! ## The theorems -/

/-- The sampler is set up without an access outside of its arrays, and each of its 250 patterns is good: one sample in
each subpixel, column and row; one time in each interval; a permutation. -/
theorem C54_jittered (ρ : Nat → ℚ) (hρ : ∀ k, 0 ≤ ρ k ∧ ρ k < 1) (xs ys : Nat) (hx : 0 < xs) (hy : 0 < ys) (k : Nat) :
    ∃ T, jittered ρ xs ys k = some T ∧ GoodTables xs ys T := by
  unfold jittered
  obtain ⟨T, e, h⟩ := loop_inv
    (fun T i => setupJitterPattern ρ xs ys (xs * ys * cacheSize) (i * (xs * ys)) T)
    (fun i T => ∀ c, c < i → Stratified xs ys (fun w => T.p2 (c * (xs * ys) + w)) ∧
      Stratified1 (xs * ys) (fun i => T.p1 (c * (xs * ys) + i)) ∧
      Shuffled (xs * ys) (fun i => T.sh (c * (xs * ys) + i))) cacheSize
    (by
      intro i hi T hT
      have hsz : i * (xs * ys) + xs * ys ≤ xs * ys * cacheSize := by
        have : (i + 1) * (xs * ys) ≤ cacheSize * (xs * ys) := Nat.mul_le_mul_right _ hi
        rw [Nat.mul_comm (xs * ys) cacheSize]; rw [Nat.add_mul] at this; omega
      obtain ⟨T', e', a, b, c, d⟩ := setupJitterPattern_spec hρ hx hy hsz T
      refine ⟨T', e', ?_⟩
      intro c' hc'
      by_cases hEq : c' = i
      · subst hEq; exact ⟨a, b, c⟩
      · have hlt : c' < i := by omega
        have hblock : (c' + 1) * (xs * ys) ≤ i * (xs * ys) := Nat.mul_le_mul_right _ hlt
        rw [Nat.add_mul] at hblock
        obtain ⟨q1, q2, q3⟩ := hT c' hlt
        have hd : ∀ w, w < xs * ys → _ := fun w hw => d (c' * (xs * ys) + w) (Or.inl (by omega))
        refine ⟨q1.congr (fun w hw => (hd w hw).1), ?_, q3.congr (fun w hw => (hd w hw).2.2)⟩
        intro j hj
        dsimp only
        rw [(hd j hj).2.1]
        exact q2 j hj)
    { p2 := fun _ => (0, 0), p1 := fun _ => 0, sh := fun _ => 0, k := k } (fun c h => by omega)
  exact ⟨T, e, h⟩

/-- The random numbers may be any; for example always one half, or always zero. -/
example : ∃ T, jittered (fun _ => 1 / 2) 2 3 0 = some T ∧ GoodTables 2 3 T :=
  C54_jittered _ (fun _ => by norm_num) 2 3 (by norm_num) (by norm_num) 0

example : ((multiJitterIndices (fun k => if k % 2 = 0 then 1 / 3 else 2 / 3) 2 3 0).map
    fun s => (List.range 12).map s.1) = some [1, 1, 1, 0, 0, 0, 0, 1, 2, 1, 2, 0] := by decide +kernel

/-- A good pixel: the position of sample `iy * xs + ix` is in its subpixel, each column and row of the pixel contains
one sample; times and levels of detail are spread out likewise; every sample has a lens offset from another cell of
the lens, and the index of the cell leads to the sample. -/
structure GoodPixel (xs ys : Nat) (offset : ℚ × ℚ) (opentime closetime : ℚ) (p : Pixel) : Prop where
  positions : Stratified xs ys (fun w => ((p.samples w).position.1 - offset.1, (p.samples w).position.2 - offset.2))
  times : ∃ t : Nat → ℚ, Stratified1 (xs * ys) t ∧
    ∀ i, i < xs * ys → (p.samples i).time = (closetime - opentime) * t i + opentime
  details : Stratified1 (xs * ys) (fun i => (p.samples i).detailLevel)
  dofIndices : Shuffled (xs * ys) p.dofIndices
  dof : Stratified xs ys (fun w => (((p.samples (p.dofIndices w)).dof.1 + 1) / 2,
    ((p.samples (p.dofIndices w)).dof.2 + 1) / 2))

lemma setSamples_spec (T : Tables) (size n : Nat) (c : Picks)
    (c1 : n * c.sh + n ≤ size) (c2 : n * c.pos + n ≤ size) (c3 : n * c.dof + n ≤ size) (c4 : n * c.time + n ≤ size)
    (c5 : n * c.lod + n ≤ size) (t1 : Shuffled n (fun i => T.sh (n * c.sh + i)))
    (offset : ℚ × ℚ) (opentime closetime : ℚ) (p : Pixel) :
    ∃ p', setSamples T size n c offset opentime closetime p = some p' ∧ Shuffled n p'.dofIndices ∧
      (∀ j, j < n → p'.dofIndices j = T.sh (n * c.sh + j)) ∧
      (∀ j, j < n → (p'.samples j).position =
          (offset.1 + (T.p2 (n * c.pos + j)).1, offset.2 + (T.p2 (n * c.pos + j)).2) ∧
        (p'.samples j).time = (closetime - opentime) * T.p1 (n * c.time + j) + opentime ∧
        (p'.samples j).detailLevel = T.p1 (n * c.lod + j)) ∧
      ∀ j, j < n → (p'.samples (p'.dofIndices j)).dof =
        (-1 + 2 * (T.p2 (n * c.dof + j)).1, -1 + 2 * (T.p2 (n * c.dof + j)).2) := by
  have hsz : ∀ b i, n * b + n ≤ size → i < n → n * b + i < size := fun b i hb hi => by omega
  unfold setSamples
  obtain ⟨d, ed, hd⟩ := loop_inv
    (fun (d : Arr Nat) i => (get (size) T.sh (n * c.sh + i)).bind fun v => put n d i v)
    (fun i d => ∀ j, j < i → d j = T.sh (n * c.sh + j)) n
    (by
      intro i hi d hd
      rw [get_lt _ (hsz _ _ c1 hi), Option.bind_some, put_lt _ _ hi]
      refine ⟨_, rfl, ?_⟩
      intro j hj
      by_cases hEq : j = i
      · subst hEq; show (if _ then _ else _) = _; rw [if_pos rfl]
      · show (if _ then _ else _) = _
        rw [if_neg hEq]; exact hd j (by omega))
    p.dofIndices (fun j h => by omega)
  rw [ed, Option.bind_some]
  have hsh : Shuffled n d := t1.congr hd
  obtain ⟨s, es, hs⟩ := loop_inv
    (fun (s : Arr Sample) i =>
      (get (size) T.p2 (n * c.pos + i)).bind fun pos =>
      (get (size) T.p1 (n * c.time + i)).bind fun t =>
      (get (size) T.p1 (n * c.lod + i)).bind fun l =>
      (put n s i { s i with position := (offset.1 + pos.1, offset.2 + pos.2),
                            time := (closetime - opentime) * t + opentime, detailLevel := l }).bind fun s =>
      (get (size) T.p2 (n * c.dof + i)).bind fun dof =>
      put n s (d i) { s (d i) with dof := (-1 + 2 * dof.1, -1 + 2 * dof.2) })
    (fun i s => (∀ j, j < i → (s j).position = (offset.1 + (T.p2 (n * c.pos + j)).1, offset.2 + (T.p2 (n * c.pos + j)).2) ∧
        (s j).time = (closetime - opentime) * T.p1 (n * c.time + j) + opentime ∧
        (s j).detailLevel = T.p1 (n * c.lod + j)) ∧
      ∀ j, j < i → (s (d j)).dof = (-1 + 2 * (T.p2 (n * c.dof + j)).1, -1 + 2 * (T.p2 (n * c.dof + j)).2)) n
    (by
      rintro i hi s ⟨q1, q2⟩
      rw [get_lt _ (hsz _ _ c2 hi), Option.bind_some, get_lt _ (hsz _ _ c4 hi), Option.bind_some,
        get_lt _ (hsz _ _ c5 hi), Option.bind_some, put_lt _ _ hi, Option.bind_some,
        get_lt _ (hsz _ _ c3 hi), Option.bind_some, put_lt _ _ (hsh.1 i hi)]
      refine ⟨_, rfl, ?_, ?_⟩
      · intro j hj
        dsimp only
        by_cases hEq : j = i
        · subst hEq
          by_cases h2 : j = d j
          · rw [if_pos h2, ← h2, if_pos rfl]; exact ⟨rfl, rfl, rfl⟩
          · rw [if_neg h2, if_pos rfl]; exact ⟨rfl, rfl, rfl⟩
        · by_cases h2 : j = d i
          · rw [if_pos h2, ← h2, if_neg hEq]; exact q1 j (by omega)
          · rw [if_neg h2, if_neg hEq]; exact q1 j (by omega)
      · intro j hj
        dsimp only
        by_cases hEq : j = i
        · subst hEq; rw [if_pos rfl]
        · have hdj : d j ≠ d i := by
            intro h
            obtain ⟨w, _, hu⟩ := hsh.2 (d i) (hsh.1 i hi)
            have := (hu j ⟨by omega, h⟩).trans (hu i ⟨hi, rfl⟩).symm
            exact hEq this
          rw [if_neg hdj]
          by_cases h2 : d j = i
          · rw [if_pos h2]; show (s i).dof = _; rw [← h2]; exact q2 j (by omega)
          · rw [if_neg h2]; exact q2 j (by omega))
    p.samples ⟨fun j h => by omega, fun j h => by omega⟩
  rw [es, Option.bind_some]
  exact ⟨_, rfl, hsh, hd, hs.1, hs.2⟩

/-- Whatever patterns are picked, `setSamples` makes a good pixel of any pixel, without an access outside of the arrays. -/
theorem C54_pixel (xs ys : Nat) (T : Tables) (hT : GoodTables xs ys T) (c : Picks)
    (hc : c.sh < cacheSize ∧ c.pos < cacheSize ∧ c.dof < cacheSize ∧ c.time < cacheSize ∧ c.lod < cacheSize)
    (offset : ℚ × ℚ) (opentime closetime : ℚ) (p : Pixel) :
    ∃ p', setSamples T (xs * ys * cacheSize) (xs * ys) c offset opentime closetime p = some p' ∧
      GoodPixel xs ys offset opentime closetime p' := by
  obtain ⟨c1, c2, c3, c4, c5⟩ := hc
  have t1 := (hT c.sh c1).2.2
  have t2 := (hT c.pos c2).1
  have t3 := (hT c.dof c3).1
  have t4 := (hT c.time c4).2.1
  have t5 := (hT c.lod c5).2.1
  have hsz : ∀ b, b < cacheSize → (xs * ys) * b + xs * ys ≤ xs * ys * cacheSize := by
    intro b hb
    have : (b + 1) * (xs * ys) ≤ cacheSize * (xs * ys) := Nat.mul_le_mul_right _ hb
    rw [Nat.mul_comm (xs * ys) cacheSize, Nat.mul_comm (xs * ys) b]; rw [Nat.add_mul] at this; omega
  rw [Nat.mul_comm c.sh] at t1
  rw [Nat.mul_comm c.pos] at t2
  rw [Nat.mul_comm c.dof] at t3
  rw [Nat.mul_comm c.time] at t4
  rw [Nat.mul_comm c.lod] at t5
  obtain ⟨p', e, hsh, -, h1, h2⟩ := setSamples_spec T _ (xs * ys) c (hsz _ c1) (hsz _ c2) (hsz _ c3) (hsz _ c4)
    (hsz _ c5) t1 offset opentime closetime p
  refine ⟨p', e, ?_⟩
  constructor
  · refine t2.congr ?_
    intro w hw
    rw [(h1 w hw).1]
    ext <;> simp
  · exact ⟨_, t4, fun i hi => (h1 i hi).2.1⟩
  · intro i hi
    dsimp only
    rw [(h1 i hi).2.2]
    exact t5 i hi
  · exact hsh
  · refine t3.congr ?_
    intro w hw
    rw [h2 w hw]
    ext <;> dsimp only <;> ring

/-- The patterns picked by a pixel are among those cached. -/
theorem C54_picks (ρ : Nat → ℚ) (hρ : ∀ k, 0 ≤ ρ k ∧ ρ k < 1) (k : Nat) :
    let c := jitterPicks ρ k
    c.sh < cacheSize ∧ c.pos < cacheSize ∧ c.dof < cacheSize ∧ c.time < cacheSize ∧ c.lod < cacheSize := by
  have h := fun k => randomInt_lt hρ k cacheSize (by unfold cacheSize; norm_num)
  exact ⟨h _, h _, h _, h _, h _⟩

/-- Times of the samples stay in the shutter interval. -/
theorem C54_shutter {xs ys : Nat} {offset : ℚ × ℚ} {opentime closetime : ℚ} {p : Pixel}
    (h : GoodPixel xs ys offset opentime closetime p) (ho : opentime ≤ closetime) (i : Nat) (hi : i < xs * ys) :
    opentime ≤ (p.samples i).time ∧ (p.samples i).time ≤ closetime := by
  obtain ⟨t, ht, he⟩ := h.times
  obtain ⟨h1, h2⟩ := ht i hi
  have hn : (0 : ℚ) < (xs * ys : Nat) := by
    have : 0 < xs * ys := by omega
    exact_mod_cast this
  have h0 : 0 ≤ t i := le_trans (div_nonneg (Nat.cast_nonneg _) hn.le) h1
  have h3 : t i ≤ 1 := by
    refine le_trans h2.le ?_
    rw [div_le_one hn]
    exact_mod_cast hi
  rw [he i hi]
  constructor
  · have := mul_nonneg (sub_nonneg.mpr ho) h0; linarith
  · have := mul_le_mul_of_nonneg_left h3 (sub_nonneg.mpr ho); linarith

/-- Pixels filled in this way meet the assumption of the choice of samples for the hit test (C53): every sample lies in
its subpixel. -/
theorem C54_placed (xs ys : Nat) (opentime closetime : ℚ) (pix : ℤ → ℤ → Pixel)
    (h : ∀ px py : ℤ, GoodPixel xs ys ((px : ℚ), (py : ℚ)) opentime closetime (pix px py)) :
    Verif.Core.HitTest.Placed xs ys fun s => ((pix s.1 s.2.1).samples s.2.2.toNat).position := by
  intro px py mx ny h1 h2 h3 h4
  obtain ⟨m, rfl⟩ := Int.eq_ofNat_of_zero_le h1
  obtain ⟨n, rfl⟩ := Int.eq_ofNat_of_zero_le h3
  have hm : m < xs := by exact_mod_cast h2
  have hn : n < ys := by exact_mod_cast h4
  have hidx : ((n : ℤ) * xs + m).toNat = n * xs + m := by
    have : ((n : ℤ) * xs + m) = ((n * xs + m : Nat) : ℤ) := by push_cast; ring
    rw [this, Int.toNat_natCast]
  obtain ⟨⟨a1, a2⟩, ⟨a3, a4⟩⟩ := (h px py).positions.sub m n hm hn
  dsimp only at a1 a2 a3 a4 ⊢
  rw [hidx]
  push_cast
  exact ⟨⟨by linarith, by linarith⟩, by linarith, by linarith⟩

/-- The regular grid: the samples are in the middle of their subpixels, and the setup stays within its arrays. -/
theorem C54_grid (xs ys : Nat) (hx : 0 < xs) (hy : 0 < ys) : ∃ T, gridTables xs ys = some T ∧
    (∀ ix iy : Nat, ix < xs → iy < ys →
      T.p2 (iy * xs + ix) = (((ix : ℚ) + 1 / 2) / xs, ((iy : ℚ) + 1 / 2) / ys)) ∧
    (∀ i, i < xs * ys → T.sh i = i) ∧
    (∀ i, i < xs * ys → T.p1 i = if xs * ys = 1 then 1 / 2 else 0) := by
  unfold gridTables
  dsimp only
  obtain ⟨p2, e2, h2⟩ := loop_inv
    (fun (p2 : Arr (ℚ × ℚ)) j => loop xs (fun p2 i =>
      put (xs * ys) p2 (j * xs + i) ((1 / xs : ℚ) * (i + 1 / 2), (1 / ys : ℚ) * (j + 1 / 2))) p2)
    (fun j p2 => ∀ ix iy : Nat, ix < xs → iy < j →
      p2 (iy * xs + ix) = (((ix : ℚ) + 1 / 2) / xs, ((iy : ℚ) + 1 / 2) / ys)) ys
    (by
      intro j hj p2 hp
      obtain ⟨q, eq, hq⟩ := loop_inv
        (fun (p2 : Arr (ℚ × ℚ)) i =>
          put (xs * ys) p2 (j * xs + i) ((1 / xs : ℚ) * (i + 1 / 2), (1 / ys : ℚ) * (j + 1 / 2)))
        (fun i p2 => ∀ ix iy : Nat, ix < xs → (iy < j ∨ (iy = j ∧ ix < i)) →
          p2 (iy * xs + ix) = (((ix : ℚ) + 1 / 2) / xs, ((iy : ℚ) + 1 / 2) / ys)) xs
        (by
          intro i hi p hp
          rw [put_lt _ _ (index_lt hi hj)]
          refine ⟨_, rfl, ?_⟩
          intro ix iy hix hiy
          by_cases hEq : iy * xs + ix = j * xs + i
          · obtain ⟨q1, q2⟩ := index_inj hix hi hEq
            subst q1 q2
            show (if _ then _ else _) = _
            rw [if_pos rfl]
            ext <;> dsimp only <;> ring
          · show (if _ then _ else _) = _
            rw [if_neg hEq]
            have : ¬ (iy = j ∧ ix = i) := by rintro ⟨q1, q2⟩; exact hEq (by rw [q1, q2])
            exact hp ix iy hix (by omega))
        p2 (fun ix iy hix hiy => hp ix iy hix (by omega))
      exact ⟨q, eq, fun ix iy hix hiy => hq ix iy hix (by omega)⟩)
    (fun _ => (0, 0)) (fun ix iy _ h => by omega)
  rw [e2, Option.bind_some]
  have hpos : 0 < xs * ys := Nat.mul_pos hx hy
  generalize xs * ys = n at *
  obtain ⟨s, es, h1⟩ := loop_inv
    (fun (s : Arr ℚ × ℚ) i => (put n s.1 i s.2).bind fun p1 => some (p1, s.2 + ((1 / n : Nat) : ℚ)))
    (fun i s => (∀ j, j < i → s.1 j = if n = 1 then 1 / 2 else 0) ∧
      (s.2 = if n = 1 then (1 / 2 : ℚ) + i else 0)) n
    (by
      rintro i hi ⟨p, v⟩ ⟨q1, q2⟩
      dsimp only at q1 q2 ⊢
      rw [put_lt _ _ hi, Option.bind_some]
      refine ⟨_, rfl, ?_, ?_⟩
      · intro j hj
        dsimp only
        by_cases hEq : j = i
        · rw [if_pos hEq, q2]
          by_cases h : n = 1
          · have : i = 0 := by omega
            rw [if_pos h, if_pos h, this]; norm_num
          · rw [if_neg h, if_neg h]
        · rw [if_neg hEq]; exact q1 j (by omega)
      · dsimp only
        rw [q2]
        by_cases h : n = 1
        · rw [if_pos h, if_pos h, h]; norm_num; ring
        · rw [if_neg h, if_neg h, Nat.div_eq_of_lt (by omega)]; norm_num)
    ((fun _ => 0), ((1 / n : Nat) : ℚ) * (1 / 2)) (by
      refine ⟨fun j h => by omega, ?_⟩
      dsimp only
      by_cases h : n = 1
      · rw [if_pos h, h]; norm_num
      · rw [if_neg h, Nat.div_eq_of_lt (by omega)]; norm_num)
  rw [es, Option.bind_some]
  obtain ⟨sh, esh, h3⟩ := loop_inv (fun (sh : Arr Nat) i => put n sh i i)
    (fun i sh => ∀ j, j < i → sh j = j) n
    (by
      intro i hi sh q
      rw [put_lt _ _ hi]
      refine ⟨_, rfl, ?_⟩
      intro j hj
      by_cases hEq : j = i
      · rw [if_pos hEq, hEq]
      · rw [if_neg hEq]; exact q j (by omega))
    (fun _ => 0) (fun j h => by omega)
  rw [esh, Option.bind_some]
  exact ⟨_, rfl, h2, h3, h1.1⟩

/-- A pixel filled from the regular grid: the samples are in the middle of their subpixels. -/
theorem C54_grid_pixel (xs ys : Nat) (hx : 0 < xs) (hy : 0 < ys) (offset : ℚ × ℚ) (opentime closetime : ℚ) (p : Pixel) :
    ∃ p', (gridTables xs ys).bind (fun T => setSamples T (xs * ys) (xs * ys) ⟨0, 0, 0, 0, 0⟩ offset opentime closetime p) =
        some p' ∧
      ∀ ix iy : Nat, ix < xs → iy < ys →
        (p'.samples (iy * xs + ix)).position =
          (offset.1 + ((ix : ℚ) + 1 / 2) / xs, offset.2 + ((iy : ℚ) + 1 / 2) / ys) ∧
        (p'.samples (iy * xs + ix)).dof = (2 * (((ix : ℚ) + 1 / 2) / xs) - 1, 2 * (((iy : ℚ) + 1 / 2) / ys) - 1) ∧
        p'.dofIndices (iy * xs + ix) = iy * xs + ix := by
  obtain ⟨T, e, h2, hsh, -⟩ := C54_grid xs ys hx hy
  rw [e, Option.bind_some]
  have t1 : Shuffled (xs * ys) (fun i => T.sh (xs * ys * 0 + i)) := by
    constructor
    · intro i hi
      dsimp only
      rw [Nat.mul_zero, Nat.zero_add, hsh i hi]
      exact hi
    · intro v hv
      refine ⟨v, ⟨hv, by dsimp only; rw [Nat.mul_zero, Nat.zero_add, hsh v hv]⟩, ?_⟩
      rintro w ⟨hw, hw'⟩
      dsimp only at hw'
      rwa [Nat.mul_zero, Nat.zero_add, hsh w hw] at hw'
  obtain ⟨p', e', -, hd, h3, h4⟩ := setSamples_spec T (xs * ys) (xs * ys) ⟨0, 0, 0, 0, 0⟩ (by simp) (by simp) (by simp)
    (by simp) (by simp) t1 offset opentime closetime p
  refine ⟨p', e', ?_⟩
  intro ix iy hix hiy
  have hl := index_lt hix hiy
  have hdi : p'.dofIndices (iy * xs + ix) = iy * xs + ix := by
    rw [hd _ hl, Nat.mul_zero, Nat.zero_add, hsh _ hl]
  have h4' := h4 _ hl
  rw [hdi, Nat.mul_zero, Nat.zero_add, h2 ix iy hix hiy] at h4'
  have h3' := (h3 _ hl).1
  rw [Nat.mul_zero, Nat.zero_add, h2 ix iy hix hiy] at h3'
  refine ⟨h3', ?_, hdi⟩
  rw [h4']
  ext <;> dsimp only <;> ring

/-- So with the regular grid (`Hider "hidden" "jitter" [0]`) and more than one sample per pixel all the samples have the
same time and the same level of detail, the left end of the interval: no motion blur. "Fill in motion blur and LoD with
the same regular grid" (libs/core/grid.cpp:51) is not what happens. -/
theorem C54_grid_times_violated : ∃ T, gridTables 2 2 = some T ∧ ¬ Stratified1 4 T.p1 ∧ ∀ i, i < 4 → T.p1 i = 0 := by
  obtain ⟨T, e, -, -, h⟩ := C54_grid 2 2 (by norm_num) (by norm_num)
  have h' : ∀ i, i < 4 → T.p1 i = 0 := fun i hi => by
    have := h i hi
    rwa [if_neg (by norm_num)] at this
  refine ⟨T, e, ?_, h'⟩
  intro hs
  have := (hs 1 (by norm_num)).1
  rw [h' 1 (by norm_num)] at this
  norm_num at this

end Verif.Core.Sampler
