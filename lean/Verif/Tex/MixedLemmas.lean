import Verif.Tex.MixedSpec
import Mathlib.Tactic.Linarith
import Mathlib.Tactic.Ring

/-!
# Lemmas on image buffers

The cells of a buffer do not overlap, and what the loops over rows and channels do to them.
-/

namespace Verif.Tex.Mixed

theorem tyOf_eq {is : List Info} {i : Nat} (h : i < is.length) : tyOf is i = is[i].ty := by
  simp [tyOf, h]

theorem before_succ {is : List Info} {i : Nat} (h : i < is.length) :
    before is (i + 1) = before is i + size (tyOf is i) := by
  unfold before
  rw [List.take_succ_eq_append_getElem h, tyOf_eq h, List.map_append, List.sum_append]
  simp only [List.map_cons, List.map_nil, List.sum_cons, List.sum_nil, Nat.add_zero]

theorem before_mono {is : List Info} {i j : Nat} (hij : i ≤ j) (hj : j ≤ is.length) :
    before is i ≤ before is j := by
  induction j with
  | zero => simp_all
  | succ j ih =>
    rcases Nat.lt_or_ge i (j + 1) with h | h
    · have := ih (by omega) (by omega)
      rw [before_succ (by omega)]
      omega
    · have : i = j + 1 := by omega
      rw [this]

theorem before_all (is : List Info) : before is is.length = whole is := by
  simp [before, whole]

theorem before_size {is : List Info} {i : Nat} (h : i < is.length) :
    before is i + size (tyOf is i) ≤ whole is := by
  rw [← before_succ h, ← before_all]
  exact before_mono (by omega) le_rfl

theorem before_apart {is : List Info} {i j : Nat} (hi : i < j) (hj : j < is.length) :
    before is i + size (tyOf is i) ≤ before is j := by
  rw [← before_succ (by omega)]
  exact before_mono (by omega) (by omega)

theorem pixel_lt {w h x y : Nat} (hx : x < w) (hy : y < h) : y * w + x < h * w := by
  have : (y + 1) * w ≤ h * w := Nat.mul_le_mul_right _ hy
  have e : (y + 1) * w = y * w + w := by ring
  omega

theorem pixel_ne {w x y x' y' : Nat} (hx : x < w) (hx' : x' < w) (h : ¬ (x = x' ∧ y = y')) :
    y * w + x ≠ y' * w + x' := by
  intro e
  have h1 : (y * w + x) / w = y := by
    rw [Nat.mul_comm, Nat.mul_add_div (by omega), Nat.div_eq_of_lt hx]; rfl
  have h2 : (y' * w + x') / w = y' := by
    rw [Nat.mul_comm, Nat.mul_add_div (by omega), Nat.div_eq_of_lt hx']; rfl
  have : y = y' := by rw [← h1, ← h2, e]
  subst this
  exact h ⟨by omega, rfl⟩

theorem place_bound {is : List Info} {w h i x y : Nat} (hi : i < is.length) (hx : x < w)
    (hy : y < h) : place is w i x y + size (tyOf is i) ≤ h * w * whole is := by
  have h1 := before_size hi
  have h2 : (y * w + x + 1) * whole is ≤ h * w * whole is :=
    Nat.mul_le_mul_right _ (pixel_lt hx hy)
  have e : (y * w + x + 1) * whole is = (y * w + x) * whole is + whole is := by ring
  unfold place
  omega

theorem place_apart {is : List Info} {w i x y j x' y' : Nat} (hi : i < is.length)
    (hj : j < is.length) (hx : x < w) (hx' : x' < w) (hne : ¬ (i = j ∧ x = x' ∧ y = y')) :
    place is w i x y + size (tyOf is i) ≤ place is w j x' y' ∨
      place is w j x' y' + size (tyOf is j) ≤ place is w i x y := by
  unfold place
  have key : ∀ P Q a b : Nat, P < Q → a ≤ whole is → P * whole is + a ≤ Q * whole is + b := by
    intro P Q a b hPQ ha
    have : (P + 1) * whole is ≤ Q * whole is := Nat.mul_le_mul_right _ hPQ
    have e : (P + 1) * whole is = P * whole is + whole is := by ring
    omega
  by_cases hp : x = x' ∧ y = y'
  · obtain ⟨rfl, rfl⟩ := hp
    rcases Nat.lt_trichotomy i j with h | h | h
    · left
      have := before_apart h hj
      omega
    · exact absurd ⟨h, rfl, rfl⟩ hne
    · right
      have := before_apart h hi
      omega
  · have hP := pixel_ne hx hx' hp
    generalize y * w + x = P at *
    generalize y' * w + x' = Q at *
    rcases Nat.lt_or_ge P Q with h | h
    · left
      have := key P Q _ (before is j) h (before_size hi)
      omega
    · right
      have := key Q P _ (before is i) (by omega) (before_size hj)
      omega

/-! ### Memory -/

theorem load_ok {d : List Nat} {p n : Nat} (h : p + n ≤ d.length) :
    load d (p : ℤ) n = .ok ((d.drop p).take n) := by
  unfold load
  rw [if_pos ⟨by omega, by omega⟩]
  simp

theorem store_ok {d : List Nat} {p : Nat} {bs : List Nat} (h : p + bs.length ≤ d.length) :
    store d (p : ℤ) bs = .ok (d.take p ++ (bs ++ d.drop (p + bs.length))) := by
  unfold store
  rw [if_pos ⟨by omega, by omega⟩]
  simp

theorem patch_length {d : List Nat} {p : Nat} {bs : List Nat} (h : p + bs.length ≤ d.length) :
    (d.take p ++ (bs ++ d.drop (p + bs.length))).length = d.length := by
  simp
  omega

theorem patch_same {d : List Nat} {p : Nat} {bs : List Nat} (h : p + bs.length ≤ d.length) :
    ((d.take p ++ (bs ++ d.drop (p + bs.length))).drop p).take bs.length = bs := by
  have hl : (d.take p).length = p := by simp; omega
  rw [List.drop_append_of_le_length (by omega), List.drop_of_length_le (by omega)]
  simp

theorem patch_other {d : List Nat} {p q n : Nat} {bs : List Nat} (h : p + bs.length ≤ d.length)
    (hq : q + n ≤ p ∨ p + bs.length ≤ q) :
    ((d.take p ++ (bs ++ d.drop (p + bs.length))).drop q).take n = (d.drop q).take n := by
  apply List.ext_getElem?
  intro m
  simp only [List.getElem?_take, List.getElem?_drop]
  split
  · rename_i hm
    have hl : (d.take p).length = p := by simp; omega
    rcases hq with hq | hq
    · rw [List.getElem?_append_left (by omega), List.getElem?_take, if_pos (by omega)]
    · rw [List.getElem?_append_right (by omega), List.getElem?_append_right (by omega),
        List.getElem?_drop, hl]
      congr 1
      omega
  · rfl

theorem toBytes_length (n v : Nat) : (toBytes n v).length = n := by
  induction n generalizing v with
  | zero => rfl
  | succ n ih => simp [toBytes, ih]

/-! ### Changes of cells -/

/-- The memory `d'` is `d` with some cells replaced. -/
def Upd (is : List Info) (w h : Nat) (d d' : List Nat)
    (new : Nat → Nat → Nat → Option (List Nat)) : Prop :=
  d'.length = d.length ∧ ∀ i < is.length, ∀ x < w, ∀ y < h,
    cell is w d' i x y = (new i x y).getD (cell is w d i x y)

theorem Upd.refl (is : List Info) (w h : Nat) (d : List Nat) :
    Upd is w h d d (fun _ _ _ => none) := ⟨rfl, fun _ _ _ _ _ _ => rfl⟩

theorem Upd.congr {is : List Info} {w h : Nat} {d d' : List Nat}
    {f g : Nat → Nat → Nat → Option (List Nat)} (hu : Upd is w h d d' f)
    (hfg : ∀ i < is.length, ∀ x < w, ∀ y < h, f i x y = g i x y) : Upd is w h d d' g :=
  ⟨hu.1, fun i hi x hx y hy => by rw [← hfg i hi x hx y hy]; exact hu.2 i hi x hx y hy⟩

theorem Upd.trans {is : List Info} {w h : Nat} {d d' d'' : List Nat}
    {f g : Nat → Nat → Nat → Option (List Nat)} (h1 : Upd is w h d d' f)
    (h2 : Upd is w h d' d'' g) : Upd is w h d d'' (fun i x y => (g i x y).or (f i x y)) := by
  refine ⟨h2.1.trans h1.1, fun i hi x hx y hy => ?_⟩
  rw [h2.2 i hi x hx y hy, h1.2 i hi x hx y hy]
  show _ = ((g i x y).or (f i x y)).getD _
  cases g i x y <;> rfl

theorem Upd.same {is : List Info} {w h : Nat} {d d' : List Nat}
    {f : Nat → Nat → Nat → Option (List Nat)} (hu : Upd is w h d d' f) {i x y : Nat}
    (hi : i < is.length) (hx : x < w) (hy : y < h) (hn : f i x y = none) :
    cell is w d' i x y = cell is w d i x y := by
  rw [hu.2 i hi x hx y hy, hn]; rfl

/-- One cell written. -/
theorem store_cell {is : List Info} {w h : Nat} {d bs : List Nat} {i x y : Nat}
    (hd : d.length = h * w * whole is) (hi : i < is.length) (hx : x < w) (hy : y < h)
    (hb : bs.length = size (tyOf is i)) :
    ∃ d', store d (place is w i x y : ℤ) bs = .ok d' ∧
      Upd is w h d d' (fun j u v => if j = i ∧ u = x ∧ v = y then some bs else none) := by
  have hp := place_bound (is := is) hi hx hy
  have hp' : place is w i x y + bs.length ≤ d.length := by omega
  refine ⟨_, store_ok hp', patch_length hp', ?_⟩
  intro j hj u hu v hv
  beta_reduce
  by_cases he : j = i ∧ u = x ∧ v = y
  · obtain ⟨rfl, rfl, rfl⟩ := he
    rw [if_pos ⟨rfl, rfl, rfl⟩]
    unfold cell
    rw [← hb, patch_same hp']
    rfl
  · rw [if_neg he]
    unfold cell
    rw [patch_other hp']
    · rfl
    · have := place_apart (is := is) (w := w) hj hi hu hx he
      rw [hb]
      exact this

theorem load_cell {is : List Info} {w h : Nat} {d : List Nat} {i x y : Nat}
    (hd : d.length = h * w * whole is) (hi : i < is.length) (hx : x < w) (hy : y < h) :
    load d (place is w i x y : ℤ) (size (tyOf is i)) = .ok (cell is w d i x y) := by
  have hp := place_bound (is := is) hi hx hy
  exact load_ok (by omega)

theorem place_next (is : List Info) (w i x y : Nat) :
    (place is w i x y : ℤ) + (whole is : ℤ) = (place is w i (x + 1) y : ℤ) := by
  unfold place
  push_cast
  ring

/-! ### Rows -/

theorem get_row {is : List Info} {w h : Nat} {d : List Nat} {i Y : Nat} (k : Codec)
    (hd : d.length = h * w * whole is) (hi : i < is.length) (hY : Y < h) :
    ∀ (n X : Nat), X + n ≤ w →
      getLoop k (tyOf is i) (whole is : ℤ) d n (place is w i X Y : ℤ) =
        .ok ((List.range n).map fun q => toFloat k (tyOf is i) (ofBytes (cell is w d i (X + q) Y)))
  | 0, X, _ => rfl
  | n + 1, X, hX => by
    rw [getLoop, load_cell hd hi (by omega) hY]
    simp only [Res.bind]
    rw [place_next, get_row k hd hi hY n (X + 1) (by omega)]
    simp only [List.range_succ_eq_map, List.map_cons, List.map_map]
    congr 2
    apply List.map_congr_left
    intro q _
    simp only [Function.comp]
    congr 3
    omega

theorem replace_row {is : List Info} {w h : Nat} {i Y : Nat} (k : Codec)
    (hi : i < is.length) (hY : Y < h) :
    ∀ (n X : Nat) (xs : List ℚ) (d : List Nat), X + n ≤ w → xs.length = n →
      d.length = h * w * whole is →
      ∃ d', replaceLoop k (tyOf is i) (whole is : ℤ) n (place is w i X Y : ℤ) xs d = .ok d' ∧
        Upd is w h d d' (fun j x y =>
          if j = i ∧ y = Y ∧ X ≤ x ∧ x < X + n then
            some (asBytes k (tyOf is i) (xs.getD (x - X) 0)) else none)
  | 0, X, xs, d, _, _, _ => ⟨d, rfl, (Upd.refl is w h d).congr (by
      intro j _ x _ y _
      rw [if_neg (by omega)])⟩
  | n + 1, X, [], d, _, hl, _ => by simp at hl
  | n + 1, X, v :: xs, d, hX, hl, hd => by
    obtain ⟨d1, hs, h1⟩ := store_cell (bs := asBytes k (tyOf is i) v) hd hi
      (show X < w by omega) hY (toBytes_length _ _)
    obtain ⟨d2, hr, h2⟩ := replace_row (w := w) k hi hY n (X + 1) xs d1 (by omega) (by simpa using hl)
      (by rw [h1.1, hd])
    refine ⟨d2, ?_, (h1.trans h2).congr ?_⟩
    · rw [replaceLoop]
      unfold asBytes at hs
      rw [hs]
      simp only [Res.bind]
      rw [place_next]
      exact hr
    · intro j _ x _ y _
      by_cases hx : x = X
      · subst hx
        rw [if_neg (by omega)]
        by_cases hj : j = i ∧ y = Y
        · rw [if_pos ⟨hj.1, rfl, hj.2⟩, if_pos ⟨hj.1, hj.2, by omega, by omega⟩]
          simp
        · rw [if_neg (by tauto), if_neg (by tauto)]
          rfl
      · by_cases hj : j = i ∧ y = Y ∧ X + 1 ≤ x ∧ x < X + 1 + n
        · rw [if_pos hj, if_neg (show ¬ (j = i ∧ x = X ∧ y = Y) by tauto),
            if_pos ⟨hj.1, hj.2.1, by omega, by omega⟩]
          have e : x - X = (x - (X + 1)) + 1 := by omega
          rw [e, List.getD_cons_succ]
          rfl
        · rw [if_neg hj, if_neg (by tauto), if_neg (by omega)]
          rfl

theorem composite_row {is : List Info} {w h : Nat} {i Y : Nat} (k : Codec)
    (hi : i < is.length) (hY : Y < h) :
    ∀ (n X : Nat) (xs as : List ℚ) (d : List Nat), X + n ≤ w → xs.length = n → as.length = n →
      d.length = h * w * whole is →
      ∃ d', compositeLoop k (tyOf is i) (whole is : ℤ) n (place is w i X Y : ℤ) xs as d = .ok d' ∧
        Upd is w h d d' (fun j x y =>
          if j = i ∧ y = Y ∧ X ≤ x ∧ x < X + n then
            some (asBytes k (tyOf is i) (over (xs.getD (x - X) 0) (as.getD (x - X) 0)
              (toFloat k (tyOf is i) (ofBytes (cell is w d i x Y))))) else none)
  | 0, X, xs, as, d, _, _, _, _ => ⟨d, by simp only [compositeLoop], (Upd.refl is w h d).congr (by
      intro j _ x _ y _
      rw [if_neg (by omega)])⟩
  | n + 1, X, [], _, d, _, hl, _, _ => by simp at hl
  | n + 1, X, _ :: _, [], d, _, _, hl, _ => by simp at hl
  | n + 1, X, v :: xs, a :: as, d, hX, hl, ha, hd => by
    obtain ⟨d1, hs, h1⟩ := store_cell (bs := asBytes k (tyOf is i)
        (over v a (toFloat k (tyOf is i) (ofBytes (cell is w d i X Y))))) hd hi
      (show X < w by omega) hY (toBytes_length _ _)
    obtain ⟨d2, hr, h2⟩ := composite_row (w := w) k hi hY n (X + 1) xs as d1 (by omega) (by simpa using hl)
      (by simpa using ha) (by rw [h1.1, hd])
    refine ⟨d2, ?_, (h1.trans h2).congr ?_⟩
    · rw [compositeLoop, load_cell hd hi (by omega) hY]
      simp only [Res.bind]
      unfold asBytes at hs
      rw [hs]
      simp only
      rw [place_next]
      exact hr
    · intro j _ x hx' y _
      by_cases hx : x = X
      · subst hx
        rw [if_neg (by omega)]
        by_cases hj : j = i ∧ y = Y
        · rw [if_pos ⟨hj.1, rfl, hj.2⟩, if_pos ⟨hj.1, hj.2, by omega, by omega⟩]
          simp
        · rw [if_neg (by tauto), if_neg (by tauto)]
          rfl
      · by_cases hj : j = i ∧ y = Y ∧ X + 1 ≤ x ∧ x < X + 1 + n
        · rw [if_pos hj, if_neg (show ¬ (j = i ∧ x = X ∧ y = Y) by tauto),
            if_pos ⟨hj.1, hj.2.1, by omega, by omega⟩]
          have e : x - X = (x - (X + 1)) + 1 := by omega
          rw [e, List.getD_cons_succ, List.getD_cons_succ,
            h1.same hi hx' hY (if_neg (by omega))]
          rfl
        · rw [if_neg hj, if_neg (by tauto), if_neg (by omega)]
          rfl

end Verif.Tex.Mixed
