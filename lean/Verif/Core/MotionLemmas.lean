import Verif.Core.Motion
import Verif.Core.HitTestProps

/-!
# Lemmas about moving micropolygons
-/

namespace Verif.Core.Motion

open Verif.Core.HitTest

/-- One bound in another. -/
structure Within (a b : Bound) : Prop where
  x0 : b.xMin ≤ a.xMin
  y0 : b.yMin ≤ a.yMin
  x1 : a.xMax ≤ b.xMax
  y1 : a.yMax ≤ b.yMax

lemma Within.refl (a : Bound) : Within a a := ⟨le_refl _, le_refl _, le_refl _, le_refl _⟩

lemma Within.trans {a b c : Bound} (h : Within a b) (h' : Within b c) : Within a c :=
  ⟨h'.x0.trans h.x0, h'.y0.trans h.y0, h.x1.trans h'.x1, h.y1.trans h'.y1⟩

lemma Within.left (a b : Bound) : Within a (encapsulate a b) :=
  ⟨min_le_left _ _, min_le_left _ _, le_max_left _ _, le_max_left _ _⟩

lemma Within.right (a b : Bound) : Within b (encapsulate a b) :=
  ⟨min_le_right _ _, min_le_right _ _, le_max_right _ _, le_max_right _ _⟩

lemma Within.contains {a b : Bound} (h : Within a b) {x y : ℚ} (hc : a.contains x y = true) : b.contains x y = true := by
  rw [contains_iff] at hc ⊢
  exact ⟨h.x0.trans hc.1, hc.2.1.trans h.x1, h.y0.trans hc.2.2.1, hc.2.2.2.trans h.y1⟩

/-- The bound at a time of the segment after key `k`. -/
def seg (ks : Nat → Key) (k : Nat) (t : ℚ) : Bound :=
  midBound (bound (ks k).q) (bound (ks (k + 1)).q) ((t - (ks k).time) / ((ks (k + 1)).time - (ks k).time))

lemma seg_left (ks : Nat → Key) (k : Nat) : seg ks k (ks k).time = bound (ks k).q := by
  unfold seg midBound
  simp

lemma seg_right (ks : Nat → Key) (k : Nat) (h : (ks k).time < (ks (k + 1)).time) :
    seg ks k (ks (k + 1)).time = bound (ks (k + 1)).q := by
  unfold seg midBound
  rw [div_self (by linarith)]
  simp

lemma affine_between {p q m M u v w : ℚ} (huv : u ≤ w) (hvw : w ≤ v) (h1 : m ≤ p + u * q) (h2 : m ≤ p + v * q)
    (h3 : p + u * q ≤ M) (h4 : p + v * q ≤ M) : m ≤ p + w * q ∧ p + w * q ≤ M := by
  rcases le_total 0 q with hq | hq
  · have := mul_le_mul_of_nonneg_right huv hq
    have := mul_le_mul_of_nonneg_right hvw hq
    exact ⟨by linarith, by linarith⟩
  · have := mul_le_mul_of_nonpos_right huv hq
    have := mul_le_mul_of_nonpos_right hvw hq
    exact ⟨by linarith, by linarith⟩

lemma affine_ge {p q m u v w : ℚ} (huv : u ≤ w) (hvw : w ≤ v) (h1 : m ≤ p + u * q) (h2 : m ≤ p + v * q) :
    m ≤ p + w * q :=
  (affine_between (M := max (p + u * q) (p + v * q)) huv hvw h1 h2 (le_max_left _ _) (le_max_right _ _)).1

lemma affine_le {p q M u v w : ℚ} (huv : u ≤ w) (hvw : w ≤ v) (h1 : p + u * q ≤ M) (h2 : p + v * q ≤ M) :
    p + w * q ≤ M :=
  (affine_between (m := min (p + u * q) (p + v * q)) huv hvw (min_le_left _ _) (min_le_right _ _) h1 h2).2

lemma seg_within (ks : Nat → Key) (k : Nat) (h : (ks k).time < (ks (k + 1)).time) {a t b : ℚ} (hat : a ≤ t) (htb : t ≤ b)
    {H : Bound} (ha : Within (seg ks k a) H) (hb : Within (seg ks k b) H) : Within (seg ks k t) H := by
  have hd : 0 < (ks (k + 1)).time - (ks k).time := by linarith
  have e1 : (a - (ks k).time) / ((ks (k + 1)).time - (ks k).time) ≤ (t - (ks k).time) / ((ks (k + 1)).time - (ks k).time) :=
    div_le_div_of_nonneg_right (by linarith) hd.le
  have e2 : (t - (ks k).time) / ((ks (k + 1)).time - (ks k).time) ≤ (b - (ks k).time) / ((ks (k + 1)).time - (ks k).time) :=
    div_le_div_of_nonneg_right (by linarith) hd.le
  obtain ⟨a1, a2, a3, a4⟩ := ha
  obtain ⟨b1, b2, b3, b4⟩ := hb
  exact ⟨affine_ge e1 e2 a1 b1, affine_ge e1 e2 a2 b2, affine_le e1 e2 a3 b3, affine_le e1 e2 a4 b4⟩

/-- The times of the keys increase. -/
def Increasing (ks : Nat → Key) (n : Nat) : Prop := ∀ i, i + 1 < n → (ks i).time < (ks (i + 1)).time

lemma Increasing.lt {ks : Nat → Key} {n : Nat} (h : Increasing ks n) {i j : Nat} (hij : i < j) (hj : j < n) :
    (ks i).time < (ks j).time := by
  induction j with
  | zero => omega
  | succ j ih =>
    rcases Nat.lt_succ_iff_lt_or_eq.mp hij with h1 | h1
    · exact (ih h1 (by omega)).trans (h j hj)
    · subst h1; exact h i hj

lemma Increasing.le {ks : Nat → Key} {n : Nat} (h : Increasing ks n) {i j : Nat} (hij : i ≤ j) (hj : j < n) :
    (ks i).time ≤ (ks j).time := by
  rcases Nat.lt_or_eq_of_le hij with h1 | h1
  · exact (h.lt h1 hj).le
  · rw [h1]

/-- The segment of a time is unique up to the meaning at a key. -/
lemma seg_unique {ks : Nat → Key} {n : Nat} (h : Increasing ks n) {i j : Nat} (hi : i + 1 < n) (hj : j + 1 < n) {t : ℚ}
    (hi1 : (ks i).time ≤ t) (hi2 : t ≤ (ks (i + 1)).time) (hj1 : (ks j).time ≤ t) (hj2 : t ≤ (ks (j + 1)).time) :
    seg ks i t = seg ks j t := by
  have key : ∀ {i j : Nat}, i < j → i + 1 < n → j + 1 < n → t ≤ (ks (i + 1)).time → (ks j).time ≤ t →
      seg ks i t = seg ks j t := by
    intro i j hlt hi hj hi2 hj1
    have hle : (ks (i + 1)).time ≤ (ks j).time := h.le (by omega) (by omega)
    have ht : t = (ks (i + 1)).time := le_antisymm hi2 (hle.trans hj1)
    have hEq : j = i + 1 := by
      by_contra hne
      have := h.lt (show i + 1 < j by omega) (by omega)
      linarith
    subst hEq
    rw [ht, seg_right ks i (h i hi), seg_left]
  rcases Nat.lt_trichotomy i j with hlt | hEq | hlt
  · exact key hlt hi hj hi2 hj1
  · rw [hEq]
  · exact (key hlt hj hi hj2 hi1).symm

lemma absorb_spec (ks : Nat → Key) (start stop : Nat) (b : Bound) :
    Within b (absorb ks start stop b) ∧
      ∀ k, start < k → k ≤ stop → Within (bound (ks k).q) (absorb ks start stop b) := by
  unfold absorb
  suffices ∀ m, Within b ((List.range m).foldl (fun b j => encapsulate b (bound (ks (start + 1 + j)).q)) b) ∧
      ∀ k, start < k → k ≤ start + m → Within (bound (ks k).q)
        ((List.range m).foldl (fun b j => encapsulate b (bound (ks (start + 1 + j)).q)) b) by
    obtain ⟨h1, h2⟩ := this (stop - start)
    exact ⟨h1, fun k hk hk' => h2 k hk (by omega)⟩
  intro m
  induction m with
  | zero => exact ⟨Within.refl _, fun k h1 h2 => by omega⟩
  | succ m ih =>
    rw [List.range_succ, List.foldl_append]
    simp only [List.foldl_cons, List.foldl_nil]
    refine ⟨ih.1.trans (Within.left _ _), ?_⟩
    intro k h1 h2
    by_cases hk : k = start + (m + 1)
    · subst hk
      rw [show start + 1 + m = start + (m + 1) by omega]
      exact Within.right _ _
    · exact (ih.2 k h1 (by omega)).trans (Within.left _ _)

lemma advance_spec {ks : Nat → Key} {n : Nat} {time : ℚ} (hlast : time ≤ (ks (n - 1)).time) :
    ∀ fuel e, e ≤ n - 1 → n - 1 - e ≤ fuel → e ≤ advance ks n time fuel e ∧ advance ks n time fuel e ≤ n - 1 ∧
      time ≤ (ks (advance ks n time fuel e)).time ∧
      (e < advance ks n time fuel e → (ks (advance ks n time fuel e - 1)).time < time) := by
  intro fuel
  induction fuel with
  | zero =>
    intro e he hf
    have : e = n - 1 := by omega
    subst this
    unfold advance
    exact ⟨le_refl _, le_refl _, hlast, fun h => absurd h (lt_irrefl _)⟩
  | succ fuel ih =>
    intro e he hf
    unfold advance
    by_cases h : time > (ks e).time ∧ e < n - 1
    · rw [if_pos h]
      obtain ⟨a, b, c, d⟩ := ih (e + 1) (by omega) (by omega)
      refine ⟨by omega, b, c, fun _ => ?_⟩
      rcases Nat.lt_or_eq_of_le a with h' | h'
      · exact d h'
      · rw [← h']; exact h.1
    · rw [if_neg h]
      refine ⟨le_refl _, he, ?_, fun h => absurd h (lt_irrefl _)⟩
      by_contra hc
      push Not at hc
      have : ¬ e < n - 1 := fun h' => h ⟨hc, h'⟩
      have : e = n - 1 := by omega
      rw [this] at hc
      linarith

/-- What holds at the start of a round: the bound is that at a time `p` not after the start of the division, in the segment
after `startKey`. -/
structure BuildInv (ks : Nat → Key) (n : Nat) (s : BuildState) (p : ℚ) : Prop where
  start : s.startKey + 1 < n
  bound : s.bound = seg ks s.startKey p
  lo : (ks s.startKey).time ≤ p
  hi : p ≤ (ks (s.startKey + 1)).time
  e1 : s.startKey + 1 ≤ s.endKey
  e2 : s.endKey ≤ n - 1
  e3 : (ks (s.endKey - 1)).time ≤ p
  lt : p < s.time

lemma buildStep_spec {ks : Nat → Key} {n : Nat} (hinc : Increasing ks n) {dt : ℚ} (hdt : 0 < dt) {s : BuildState} {p : ℚ}
    (h : BuildInv ks n s p) (hlast : s.time ≤ (ks (n - 1)).time) :
    (buildStep ks n dt s).1.2 = s.time - dt ∧
    (∀ t k, p ≤ t → t ≤ s.time → k + 1 < n → (ks k).time ≤ t → t ≤ (ks (k + 1)).time →
      Within (seg ks k t) (buildStep ks n dt s).1.1) ∧
    (buildStep ks n dt s).2.time = s.time + dt ∧
    BuildInv ks n (buildStep ks n dt s).2 s.time := by
  obtain ⟨h1, h2, h3, h4, h5, h6, h7, h8⟩ := h
  obtain ⟨a1, a2, a3, a4⟩ := advance_spec hlast n s.endKey h6 (by omega)
  unfold buildStep
  generalize advance ks n s.time n s.endKey = e at *
  have e4 : (ks (e - 1)).time < s.time := by
    rcases Nat.lt_or_eq_of_le a1 with h' | h'
    · exact a4 h'
    · rw [← h']; linarith
  have eEq : e - 1 + 1 = e := by omega
  have hmid : midBound (bound (ks (e - 1)).q) (bound (ks e).q)
      ((s.time - (ks (e - 1)).time) / ((ks e).time - (ks (e - 1)).time)) = seg ks (e - 1) s.time := by
    unfold seg; rw [eEq]
  dsimp only
  rw [hmid]
  obtain ⟨b1, b2⟩ := absorb_spec ks s.startKey (e - 1) (encapsulate s.bound (seg ks (e - 1) s.time))
  generalize absorb ks s.startKey (e - 1) (encapsulate s.bound (seg ks (e - 1) s.time)) = B at *
  refine ⟨rfl, ?_, rfl, ?_⟩
  · intro t k ht1 ht2 hk hk1 hk2
    -- a segment of the time among those from `startKey` to `endKey - 1`
    have hex : ∃ j, s.startKey ≤ j ∧ j ≤ e - 1 ∧ (ks j).time ≤ t ∧ t ≤ (ks (j + 1)).time := by
      by_cases c1 : k < s.startKey
      · refine ⟨s.startKey, le_refl _, by omega, ?_, ?_⟩
        · have := hinc.le (show k + 1 ≤ s.startKey by omega) (by omega)
          linarith
        · have := hinc.le (show k + 1 ≤ s.startKey + 1 by omega) (by omega)
          linarith
      · by_cases c2 : e - 1 < k
        · refine ⟨e - 1, by omega, le_refl _, ?_, ?_⟩
          · have := hinc.le (show e - 1 ≤ k by omega) (by omega)
            linarith
          · rw [eEq]; linarith
        · exact ⟨k, by omega, by omega, hk1, hk2⟩
    obtain ⟨j, j1, j2, j3, j4⟩ := hex
    rw [seg_unique hinc hk (by omega) hk1 hk2 j3 j4]
    have hseg := hinc j (by omega)
    by_cases cl : j = s.startKey
    · by_cases cr : j = e - 1
      · refine seg_within ks j hseg ht1 ht2 ?_ ?_
        · rw [cl, ← h2]; exact (Within.left _ _).trans b1
        · rw [cr]; exact (Within.right _ _).trans b1
      · refine seg_within ks j hseg ht1 j4 ?_ ?_
        · rw [cl, ← h2]; exact (Within.left _ _).trans b1
        · rw [seg_right ks j hseg]; exact b2 _ (by omega) (by omega)
    · by_cases cr : j = e - 1
      · refine seg_within ks j hseg j3 ht2 ?_ ?_
        · rw [seg_left]; exact b2 _ (by omega) (by omega)
        · rw [cr]; exact (Within.right _ _).trans b1
      · refine seg_within ks j hseg j3 j4 ?_ ?_
        · rw [seg_left]; exact b2 _ (by omega) (by omega)
        · rw [seg_right ks j hseg]; exact b2 _ (by omega) (by omega)
  · have hm : max s.startKey (e - 1) = e - 1 := max_eq_right (by omega)
    refine ⟨?_, ?_, ?_, ?_, ?_, a2, e4.le, ?_⟩
    · dsimp only; rw [hm]; omega
    · dsimp only; rw [hm]
    · dsimp only; rw [hm]; exact e4.le
    · dsimp only; rw [hm, eEq]; exact a3
    · dsimp only; rw [hm]; omega
    · dsimp only; linarith

lemma buildLoop_spec {ks : Nat → Key} {n : Nat} (hinc : Increasing ks n) {dt : ℚ} (hdt : 0 < dt) :
    ∀ (d : Nat) (s : BuildState) (p : ℚ), BuildInv ks n s p → p ≤ s.time - dt → s.time - dt + d * dt ≤ (ks (n - 1)).time →
      (buildLoop ks n dt d s).length = d ∧
      ∀ i, ∀ hi : i < (buildLoop ks n dt d s).length,
        ((buildLoop ks n dt d s)[i]).2 = s.time - dt + i * dt ∧
        ∀ t k, s.time - dt + i * dt ≤ t → t ≤ s.time - dt + (i + 1) * dt → k + 1 < n → (ks k).time ≤ t →
          t ≤ (ks (k + 1)).time → Within (seg ks k t) ((buildLoop ks n dt d s)[i]).1 := by
  intro d
  induction d with
  | zero =>
    intro s p _ _ _
    exact ⟨rfl, fun i hi => by simp [buildLoop] at hi⟩
  | succ d ih =>
    intro s p h hp hl
    have hd0 : (0 : ℚ) ≤ d * dt := mul_nonneg (Nat.cast_nonneg _) hdt.le
    push_cast at hl
    obtain ⟨r1, r2, r3, r4⟩ := buildStep_spec hinc hdt h (by linarith)
    have hrec := ih (buildStep ks n dt s).2 s.time r4 (by rw [r3]; linarith) (by rw [r3]; linarith)
    have hun : buildLoop ks n dt (d + 1) s = (buildStep ks n dt s).1 :: buildLoop ks n dt d (buildStep ks n dt s).2 := rfl
    rw [hun]
    refine ⟨by rw [List.length_cons, hrec.1], ?_⟩
    intro i hi
    cases i with
    | zero =>
      refine ⟨by rw [List.getElem_cons_zero, r1]; push_cast; ring, ?_⟩
      intro t k ht1 ht2 hk hk1 hk2
      rw [List.getElem_cons_zero]
      push_cast at ht1 ht2
      exact r2 t k (by linarith) (by linarith) hk hk1 hk2
    | succ i =>
      rw [List.length_cons] at hi
      obtain ⟨q1, q2⟩ := hrec.2 i (by omega)
      refine ⟨?_, ?_⟩
      · rw [List.getElem_cons_succ, q1, r3]; push_cast; ring
      · intro t k ht1 ht2 hk hk1 hk2
        rw [List.getElem_cons_succ]
        push_cast at ht1 ht2
        exact q2 t k (by rw [r3]; linarith) (by rw [r3]; linarith) hk hk1 hk2

/-! ## Positions in time -/

lemma findKey_spec {ks : Nat → Key} {n : Nat} {t : ℚ} (hlt : t < (ks (n - 1)).time) :
    ∀ fuel i, i + 1 < n + 1 → n - 1 - i ≤ fuel → (ks i).time ≤ t →
      findKey ks t fuel i + 1 < n ∧ (ks (findKey ks t fuel i)).time ≤ t ∧ t < (ks (findKey ks t fuel i + 1)).time := by
  intro fuel
  induction fuel with
  | zero =>
    intro i hi hf h
    have : i = n - 1 := by omega
    subst this
    linarith
  | succ fuel ih =>
    intro i hi hf h
    have hne : i ≠ n - 1 := by rintro rfl; linarith
    unfold findKey
    by_cases hc : t ≥ (ks (i + 1)).time
    · rw [if_pos hc]
      exact ih (i + 1) (by omega) (by omega) hc
    · rw [if_neg hc]
      push Not at hc
      exact ⟨by omega, h, hc⟩

/-- Every time between the first and the last key is in a segment, and the tight bound is that of the segment. -/
lemma tight_seg {ks : Nat → Key} {n : Nat} (hn : 2 ≤ n) (hinc : Increasing ks n) {t : ℚ} (h0 : (ks 0).time ≤ t)
    (h1 : t ≤ (ks (n - 1)).time) :
    ∃ k, k + 1 < n ∧ (ks k).time ≤ t ∧ t ≤ (ks (k + 1)).time ∧ tightBound ks n t = seg ks k t := by
  unfold tightBound position
  by_cases c0 : t > (ks 0).time
  · rw [if_pos c0]
    by_cases c1 : t ≥ (ks (n - 1)).time
    · rw [if_pos c1]
      have ht : t = (ks (n - 1)).time := le_antisymm h1 c1
      have hEq : n - 2 + 1 = n - 1 := by omega
      refine ⟨n - 2, by omega, ?_, by rw [hEq]; exact h1, ?_⟩
      · rw [ht]; exact hinc.le (by omega) (by omega)
      · have := seg_right ks (n - 2) (hinc (n - 2) (by omega))
        rw [hEq] at this
        rw [ht, this]; rfl
    · rw [if_neg c1]
      push Not at c1
      obtain ⟨a, b, c⟩ := findKey_spec c1 n 0 (by omega) (by omega) h0
      dsimp only
      generalize findKey ks t n 0 = i at *
      refine ⟨i, a, b, c.le, ?_⟩
      by_cases hEx : (ks i).time = t
      · rw [if_pos (by simpa using hEx), ← hEx, seg_left]
      · rw [if_neg (by simpa using hEx)]
        unfold seg midBound mix
        congr 1 <;> ring
  · rw [if_neg c0]
    have ht : t = (ks 0).time := le_antisymm (not_lt.mp c0) h0
    refine ⟨0, by omega, h0, by rw [ht]; exact (hinc 0 (by omega)).le, ?_⟩
    rw [ht, seg_left]; rfl

lemma mix_between {f a b a' b' : ℚ} (h0 : 0 ≤ f) (h1 : f ≤ 1) (ha : a ≤ a') (hb : b ≤ b') : mix f a b ≤ mix f a' b' := by
  unfold mix
  have := mul_le_mul_of_nonneg_left ha (sub_nonneg.mpr h1)
  have := mul_le_mul_of_nonneg_left hb h0
  linarith

lemma mix_bound {f : ℚ} (h0 : 0 ≤ f) (h1 : f ≤ 1) (a b : Quad) :
    Within (bound ⟨mixPoint f a.p0 b.p0, mixPoint f a.p1 b.p1, mixPoint f a.p2 b.p2, mixPoint f a.p3 b.p3⟩)
      ⟨mix f (bound a).xMin (bound b).xMin, mix f (bound a).yMin (bound b).yMin, mix f (bound a).xMax (bound b).xMax,
        mix f (bound a).yMax (bound b).yMax⟩ := by
  unfold bound mixPoint
  constructor <;> dsimp only
  · refine le_min (le_min (le_min ?_ ?_) ?_) ?_ <;> refine mix_between h0 h1 ?_ ?_ <;> simp
  · refine le_min (le_min (le_min ?_ ?_) ?_) ?_ <;> refine mix_between h0 h1 ?_ ?_ <;> simp
  · refine max_le (max_le (max_le ?_ ?_) ?_) ?_ <;> refine mix_between h0 h1 ?_ ?_ <;> simp
  · refine max_le (max_le (max_le ?_ ?_) ?_) ?_ <;> refine mix_between h0 h1 ?_ ?_ <;> simp

/-- The bound of the micropolygon at a time is in the tight bound. -/
lemma quad_tight {ks : Nat → Key} {n : Nat} (hn : 2 ≤ n) (t : ℚ) :
    Within (bound (quadAt ks n t)) (tightBound ks n t) := by
  unfold quadAt tightBound position
  by_cases c0 : t > (ks 0).time
  · rw [if_pos c0]
    by_cases c1 : t ≥ (ks (n - 1)).time
    · rw [if_pos c1]; exact Within.refl _
    · rw [if_neg c1]
      push Not at c1
      obtain ⟨a, b, c⟩ := findKey_spec c1 n 0 (by omega) (by omega) c0.le
      dsimp only
      generalize findKey ks t n 0 = i at *
      by_cases hEx : (ks i).time = t
      · rw [if_pos (by simpa using hEx), if_pos (by simpa using hEx)]; exact Within.refl _
      · rw [if_neg (by simpa using hEx), if_neg (by simpa using hEx)]
        have hd : 0 < (ks (i + 1)).time - (ks i).time := by linarith
        refine mix_bound (div_nonneg (by linarith) hd.le) ?_ _ _
        rw [div_le_one hd]; linarith
  · rw [if_neg c0]; exact Within.refl _

/-! ## Visits -/

/-- The end of the time of the bound number `i`. -/
def endTime (closetime : ℚ) (bs : List (Bound × ℚ)) (i : Nat) : ℚ := ((bs[i + 1]?).map (·.2)).getD closetime

lemma mem_visits (r : Region) (o c : ℚ) (v : Visit) : ∀ bs : List (Bound × ℚ),
    v ∈ visits r o c bs ↔ ∃ i, ∃ hi : i < bs.length, v ∈ visitsOf r o c (bs[i]).1 (bs[i]).2 (endTime c bs i)
  | [] => by simp [visits]
  | [(b, t)] => by
    unfold visits
    constructor
    · intro h; exact ⟨0, by simp, h⟩
    · rintro ⟨i, hi, h⟩
      have : i = 0 := by simp at hi; omega
      subst this
      exact h
  | (b, t) :: (b', t') :: l => by
    unfold visits
    rw [List.mem_append, mem_visits r o c v ((b', t') :: l)]
    constructor
    · rintro (h | ⟨i, hi, h⟩)
      · exact ⟨0, by simp, h⟩
      · refine ⟨i + 1, by simp at hi ⊢; omega, ?_⟩
        simpa [endTime] using h
    · rintro ⟨i, hi, h⟩
      cases i with
      | zero => exact Or.inl h
      | succ i =>
        refine Or.inr ⟨i, by simp at hi ⊢; omega, ?_⟩
        simpa [endTime] using h

lemma mem_pixels (lo hi : ℚ) (rlo rhi k : ℤ) : k ∈ pixels lo hi rlo rhi ↔ (rlo ≤ k ∧ k < rhi) ∧ ⌊lo⌋ ≤ k ∧ k < ⌈hi⌉ := by
  unfold pixels
  rw [mem_upto, lceil_eq]
  constructor
  · rintro ⟨h1, h2⟩
    split_ifs at h1 h2 <;> omega
  · rintro ⟨⟨h1, h2⟩, h3, h4⟩
    split_ifs <;> omega

end Verif.Core.Motion
