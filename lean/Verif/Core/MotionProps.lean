import Verif.Core.MotionLemmas
import Verif.Core.SamplerProps
import Verif.Math.RandomProps

/-!
# C56: moving micropolygons

A moving micropolygon is given by its vertices at some times, the keys. Its motion is linear between them. A sample of a
pixel is hit if the micropolygon covers the position of the sample at the time of the sample. To find these samples
quickly, the shutter interval is divided, and the samples whose times are in a division are tested against a bound of the
micropolygon over this time first.
-/

namespace Verif.Core.Motion

open Verif.Core.HitTest

/-! ## Specification -/

/-- The point on the way from `a` to `b`. -/
def way (a b : P3) (f : ℚ) : P3 := ⟨a.x + f * (b.x - a.x), a.y + f * (b.y - a.y), a.z + f * (b.z - a.z)⟩

/-- The micropolygon is `q` at the time `t`: on the way from one key to the next. -/
def At (ks : Nat → Key) (n : Nat) (t : ℚ) (q : Quad) : Prop :=
  ∃ (k : Nat) (f : ℚ), k + 1 < n ∧ 0 ≤ f ∧ f ≤ 1 ∧ t = (ks k).time + f * ((ks (k + 1)).time - (ks k).time) ∧
    q = ⟨way (ks k).q.p0 (ks (k + 1)).q.p0 f, way (ks k).q.p1 (ks (k + 1)).q.p1 f, way (ks k).q.p2 (ks (k + 1)).q.p2 f,
      way (ks k).q.p3 (ks (k + 1)).q.p3 f⟩

/-- Sample `i` of each pixel has a time in the `i`-th part of the shutter interval. -/
def Timed (numSamples : Nat) (opentime closetime : ℚ) (tm : ℤ → ℤ → ℤ → ℚ) : Prop :=
  ∀ (px py : ℤ) (i : Nat), i < numSamples → ∃ τ : ℚ, (i : ℚ) / numSamples ≤ τ ∧ τ < ((i : ℚ) + 1) / numSamples ∧
    tm px py i = (closetime - opentime) * τ + opentime

/-- The samples of a pixel lie inside of it. -/
def Inside (numSamples : Nat) (pos : ℤ → ℤ → ℤ → ℚ × ℚ) : Prop :=
  ∀ (px py : ℤ) (i : Nat), i < numSamples →
    ((px : ℚ) < (pos px py i).1 ∧ (pos px py i).1 < px + 1) ∧ ((py : ℚ) < (pos px py i).2 ∧ (pos px py i).2 < py + 1)

/-! ## Keys -/

lemma setKey_last {t : ℚ} {i : Nat} : ∀ {l : List (ℚ × Nat)}, (∀ p ∈ l, p.1 < t) → setKey t i l = l ++ [(t, i)]
  | [], _ => rfl
  | (u, j) :: l, h => by
    have hu : u < t := h (u, j) (by simp)
    unfold setKey
    rw [if_neg (by linarith), if_neg (by linarith), setKey_last (fun p hp => h p (List.mem_cons_of_mem _ hp))]
    rfl

lemma setKey_mem {t : ℚ} {i : Nat} : ∀ {l : List (ℚ × Nat)}, l.Pairwise (fun p q => p.1 < q.1) → (t, i) ∈ l →
    setKey t i l = l
  | [], _, h => by simp at h
  | (u, j) :: l, hs, h => by
    rw [List.pairwise_cons] at hs
    unfold setKey
    rcases List.mem_cons.mp h with h1 | h1
    · cases h1
      rw [if_neg (lt_irrefl _), if_pos rfl]
    · have := hs.1 _ h1
      dsimp only at this
      rw [if_neg (by linarith), if_neg (by linarith), setKey_mem hs.2 h1]

lemma addTimes_foldl : ∀ (ts : List ℚ) (k : Nat) (m : List (ℚ × Nat)), ts.Pairwise (· < ·) →
    (∀ p ∈ m, ∀ t ∈ ts, p.1 < t) → (ts.zipIdx k).foldl (fun m p => setKey p.1 p.2 m) m = m ++ ts.zipIdx k
  | [], k, m, _, _ => by simp
  | t :: ts, k, m, h, hm => by
    rw [List.pairwise_cons] at h
    rw [List.zipIdx_cons, List.foldl_cons]
    dsimp only
    rw [setKey_last (fun p hp => hm p hp t (by simp)), addTimes_foldl ts (k + 1) _ h.2 ?_]
    · simp
    · intro p hp t' ht'
      rcases List.mem_append.mp hp with h1 | h1
      · exact hm p h1 t' (List.mem_cons_of_mem _ ht')
      · rw [List.mem_singleton] at h1; subst h1; exact h.1 t' ht'

lemma addTimes_nil {ts : List ℚ} (h : ts.Pairwise (· < ·)) : addTimes ts [] = ts.zipIdx := by
  unfold addTimes
  rw [addTimes_foldl ts 0 [] h (by simp)]
  simp

lemma zipIdx_sorted : ∀ (ts : List ℚ) (k : Nat), ts.Pairwise (· < ·) → (ts.zipIdx k).Pairwise (fun p q => p.1 < q.1)
  | [], k, _ => by simp
  | t :: ts, k, h => by
    rw [List.pairwise_cons] at h
    rw [List.zipIdx_cons, List.pairwise_cons]
    refine ⟨?_, zipIdx_sorted ts (k + 1) h.2⟩
    intro p hp
    have := List.fst_mem_of_mem_zipIdx hp
    exact h.1 _ this

lemma foldl_fix {α β : Type} (f : β → α → β) (b : β) : ∀ l : List α, (∀ a ∈ l, f b a = b) → l.foldl f b = b
  | [], _ => rfl
  | a :: l, h => by
    rw [List.foldl_cons, h a (by simp)]
    exact foldl_fix f b l (fun a ha => h a (List.mem_cons_of_mem _ ha))

lemma addTimes_same {ts : List ℚ} (h : ts.Pairwise (· < ·)) : addTimes ts ts.zipIdx = ts.zipIdx := by
  unfold addTimes
  refine foldl_fix _ _ _ ?_
  intro p hp
  exact setKey_mem (zipIdx_sorted ts 0 h) hp

lemma fill_skip {α : Type} (P : ℚ → α) (i : Nat) : ∀ (l : List (ℚ × Nat)) (a : Nat → Option α), (∀ p ∈ l, p.2 ≠ i) →
    l.foldl (fun a p i => if i = p.2 then some (P p.1) else a i) a i = a i
  | [], a, _ => rfl
  | p :: l, a, h => by
    rw [List.foldl_cons, fill_skip P i l _ (fun p hp => h p (List.mem_cons_of_mem _ hp))]
    rw [if_neg (fun hc => h p (by simp) hc.symm)]

lemma fill_mem {α : Type} (P : ℚ → α) (p : ℚ × Nat) : ∀ (l : List (ℚ × Nat)) (a : Nat → Option α),
    l.Pairwise (fun p q => p.2 ≠ q.2) → p ∈ l →
    l.foldl (fun a p i => if i = p.2 then some (P p.1) else a i) a p.2 = some (P p.1)
  | [], a, _, h => by simp at h
  | q :: l, a, hs, h => by
    rw [List.pairwise_cons] at hs
    rw [List.foldl_cons]
    rcases List.mem_cons.mp h with h1 | h1
    · subst h1
      rw [fill_skip P p.2 l _ (fun q hq => (hs.1 q hq).symm), if_pos rfl]
    · exact fill_mem P p l _ hs.2 h1

lemma zipIdx_indices : ∀ (ts : List ℚ) (k : Nat), (ts.zipIdx k).Pairwise (fun p q => p.2 ≠ q.2)
  | [], k => by simp
  | t :: ts, k => by
    rw [List.zipIdx_cons, List.pairwise_cons]
    refine ⟨?_, zipIdx_indices ts (k + 1)⟩
    intro p hp
    have := List.le_snd_of_mem_zipIdx hp
    dsimp only
    omega

lemma setKey_sorted {t : ℚ} {i : Nat} : ∀ {l : List (ℚ × Nat)}, l.Pairwise (fun p q => p.1 < q.1) →
    (setKey t i l).Pairwise (fun p q => p.1 < q.1) ∧
    ∀ p, p ∈ setKey t i l ↔ p = (t, i) ∨ (p.1 ≠ t ∧ p ∈ l)
  | [], _ => by
    refine ⟨by simp [setKey], fun p => ?_⟩
    simp [setKey]
  | (u, j) :: l, hs => by
    have hs' := List.pairwise_cons.mp hs
    unfold setKey
    by_cases h1 : t < u
    · rw [if_pos h1]
      refine ⟨List.pairwise_cons.mpr ⟨?_, hs⟩, fun p => ?_⟩
      · intro p hp
        rcases List.mem_cons.mp hp with rfl | hp
        · exact h1
        · exact lt_trans h1 (hs'.1 p hp)
      · rw [List.mem_cons]
        refine or_congr_right ⟨fun hp => ⟨?_, hp⟩, fun hp => hp.2⟩
        rcases List.mem_cons.mp hp with rfl | hp
        · exact ne_of_gt h1
        · exact ne_of_gt (lt_trans h1 (hs'.1 p hp))
    · rw [if_neg h1]
      by_cases h2 : t = u
      · subst h2
        rw [if_pos rfl]
        refine ⟨List.pairwise_cons.mpr ⟨hs'.1, hs'.2⟩, fun p => ?_⟩
        rw [List.mem_cons, List.mem_cons]
        refine or_congr_right ⟨fun hp => ⟨ne_of_gt (hs'.1 p hp), Or.inr hp⟩, fun hp => ?_⟩
        rcases hp.2 with e | e
        · exact absurd (by rw [e]) hp.1
        · exact e
      · rw [if_neg h2]
        have hu : u < t := lt_of_le_of_ne (not_lt.mp h1) (Ne.symm h2)
        obtain ⟨ih1, ih2⟩ := setKey_sorted (t := t) (i := i) hs'.2
        refine ⟨List.pairwise_cons.mpr ⟨?_, ih1⟩, fun p => ?_⟩
        · intro p hp
          rcases (ih2 p).mp hp with rfl | hp
          · exact hu
          · exact hs'.1 p hp.2
        · rw [List.mem_cons, List.mem_cons, ih2]
          constructor
          · rintro (rfl | rfl | h)
            · exact Or.inr ⟨ne_of_lt hu, Or.inl rfl⟩
            · exact Or.inl rfl
            · exact Or.inr ⟨h.1, Or.inr h.2⟩
          · rintro (rfl | ⟨h, rfl | h3⟩)
            · exact Or.inr (Or.inl rfl)
            · exact Or.inl rfl
            · exact Or.inr (Or.inr ⟨h, h3⟩)

lemma addTimes_map : ∀ (ts : List ℚ) (k : Nat) (m : List (ℚ × Nat)), ts.Nodup → m.Pairwise (fun p q => p.1 < q.1) →
    ((ts.zipIdx k).foldl (fun m p => setKey p.1 p.2 m) m).Pairwise (fun p q => p.1 < q.1) ∧
    ∀ p, p ∈ (ts.zipIdx k).foldl (fun m p => setKey p.1 p.2 m) m ↔ p ∈ ts.zipIdx k ∨ (p.1 ∉ ts ∧ p ∈ m)
  | [], k, m, _, hm => ⟨hm, fun p => by simp⟩
  | t :: ts, k, m, hn, hm => by
    obtain ⟨s1, s2⟩ := setKey_sorted (t := t) (i := k) hm
    rw [List.nodup_cons] at hn
    obtain ⟨i1, i2⟩ := addTimes_map ts (k + 1) (setKey t k m) hn.2 s1
    rw [List.zipIdx_cons, List.foldl_cons]
    refine ⟨i1, fun p => ?_⟩
    dsimp only
    rw [i2 p, s2 p, List.mem_cons, List.mem_cons, not_or]
    constructor
    · rintro (h | ⟨h, rfl | h2⟩)
      · exact Or.inl (Or.inr h)
      · exact Or.inl (Or.inl rfl)
      · exact Or.inr ⟨⟨h2.1, h⟩, h2.2⟩
    · rintro ((rfl | h) | h)
      · exact Or.inr ⟨hn.1, Or.inl rfl⟩
      · exact Or.inl h
      · exact Or.inr ⟨h.1.2, Or.inr ⟨h.1.1, h.2⟩⟩

/-- **C56** The key times of a grid are the times of the object and of a moving camera, each once, in order; a time of both has the
index it has in the camera, a time of the object only the index it has there. -/
theorem C56_key_times (object camera : List ℚ) (ho : object.Nodup) (hc : camera.Nodup) (hm : 1 < camera.length) :
    (keyframeTimes object camera).Pairwise (fun p q => p.1 < q.1) ∧
    ∀ t i, (t, i) ∈ keyframeTimes object camera ↔
      camera[i]? = some t ∨ (t ∉ camera ∧ object[i]? = some t) := by
  unfold keyframeTimes
  dsimp only
  rw [if_pos hm]
  obtain ⟨a1, a2⟩ := addTimes_map object 0 [] ho List.Pairwise.nil
  obtain ⟨b1, b2⟩ := addTimes_map camera 0 (addTimes object []) hc a1
  refine ⟨b1, fun t i => ?_⟩
  have h2 := a2 (t, i)
  have e : ∀ l : List ℚ, (t, i) ∈ l.zipIdx ↔ l[i]? = some t := fun l => List.mk_mem_zipIdx_iff_getElem?
  unfold addTimes at b2 ⊢
  rw [b2 (t, i), h2, e, e]
  simp

/-- Non-vacuity: a time of both with different indices. -/
example : keyframeTimes [0, 2] [2, 5] = [(0, 0), (2, 0), (5, 1)] := by decide +kernel

/-- Each key gets the points at its time – if the camera does not move, or has the times of the object (partial, see
`C56_keys_violated`). -/
theorem C56_keys_partial {α : Type} (P : ℚ → α) (object camera : List ℚ) (ho : object.Pairwise (· < ·))
    (hc : camera.length ≤ 1 ∨ camera = object) : keys P object camera = object.map fun t => (t, some (P t)) := by
  have hm : keyframeTimes object camera = object.zipIdx := by
    unfold keyframeTimes
    rw [addTimes_nil ho]
    dsimp only
    rcases hc with h | h
    · rw [if_neg (by omega)]
    · rw [h, addTimes_same ho, ite_self]
  unfold keys
  rw [hm]
  dsimp only
  have : ∀ p ∈ object.zipIdx, (p.1, fillPoints P object.zipIdx p.2) = (p.1, some (P p.1)) := by
    intro p hp
    unfold fillPoints
    rw [fill_mem P p _ _ (zipIdx_indices object 0) hp]
  rw [List.map_congr_left this]
  have h2 : object.map (fun t => (t, some (P t))) = (object.zipIdx.map Prod.fst).map (fun t => (t, some (P t))) := by
    rw [List.zipIdx_map_fst]
  rw [h2, List.map_map]
  rfl

example : keys (fun t => 10 * t) [0, 1/2, 1] [0] = [(0, some 0), (1/2, some 5), (1, some 10)] := by decide +kernel

/-- Object and camera moving with different times: the key at the time 1/2 gets the points at the time 1. -/
theorem C56_keys_violated : ∃ (object camera : List ℚ), object.Pairwise (· < ·) ∧ camera.Pairwise (· < ·) ∧
    ((1 / 2 : ℚ), some (1 : ℚ)) ∈ keys (fun t => t) object camera ∧
    ((1 / 2 : ℚ), some (1 / 2 : ℚ)) ∉ keys (fun t => t) object camera :=
  ⟨[0, 1], [0, 1 / 2], by decide +kernel, by decide +kernel, by decide +kernel, by decide +kernel⟩

/-! ## Positions -/

/-- Where the micropolygon is tested is where it is at the time of the sample; before the first key and after the last it
rests. -/
theorem C56_position (ks : Nat → Key) (n : Nat) (hn : 2 ≤ n) (t : ℚ) :
    (t ≤ (ks 0).time → quadAt ks n t = (ks 0).q) ∧
    ((ks 0).time < t → (ks (n - 1)).time ≤ t → quadAt ks n t = (ks (n - 1)).q) ∧
    ((ks 0).time < t → t < (ks (n - 1)).time → At ks n t (quadAt ks n t)) := by
  unfold quadAt position
  refine ⟨?_, ?_, ?_⟩
  · intro h; rw [if_neg (by linarith)]; rfl
  · intro h1 h2; rw [if_pos h1, if_pos h2]; rfl
  · intro h1 h2
    rw [if_pos h1, if_neg (by linarith)]
    obtain ⟨a, b, c⟩ := findKey_spec h2 n 0 (by omega) (by omega) h1.le
    dsimp only
    generalize findKey ks t n 0 = i at *
    have hd : 0 < (ks (i + 1)).time - (ks i).time := by linarith
    refine ⟨i, (t - (ks i).time) / ((ks (i + 1)).time - (ks i).time), a, div_nonneg (by linarith) hd.le, ?_, ?_, ?_⟩
    · rw [div_le_one hd]; linarith
    · rw [div_mul_cancel₀ _ hd.ne']; ring
    · by_cases hEx : (ks i).time = t
      · rw [if_pos (by simpa using hEx), hEx]
        unfold way; simp
      · rw [if_neg (by simpa using hEx)]
        unfold mixPoint mix way
        congr 2 <;> ring

/-- A square moving to the right. -/
def exampleKeys (i : Nat) : Key := ⟨i, ⟨⟨4 * i, 0, 0⟩, ⟨4 * i + 1, 0, 0⟩, ⟨4 * i, 1, 0⟩, ⟨4 * i + 1, 1, 0⟩⟩⟩

example : (quadAt exampleKeys 2 (1 / 2)).p0.x = 2 ∧ (quadAt exampleKeys 2 (1 / 2)).p1.x = 3 := by decide +kernel

/-- The test of a sample is the test of C53 for the micropolygon at the time of the sample – if the vertices are then in
the order of the first key (partial, see `C56_order_violated`). -/
theorem C56_sample_partial (ks : Nat → Key) (n : Nat) (hn : 2 ≤ n) (t x y : ℚ)
    (ho : indexCode (quadAt ks n t) = indexCode (ks 0).q) : sample ks n t x y = hits (quadAt ks n t) x y := by
  unfold sample
  rw [← ho]
  show (_ && hits (quadAt ks n t) x y) = _
  rcases h : hits (quadAt ks n t) x y with _ | _
  · rw [Bool.and_false]
  · rw [Bool.and_true]
    exact (quad_tight hn t).contains (hits_bound h)

example : indexCode (quadAt exampleKeys 2 (1 / 2)) = indexCode (exampleKeys 0).q := by decide +kernel
example : sample exampleKeys 2 (1 / 2) (5 / 2) (1 / 2) = true ∧ sample exampleKeys 2 (1 / 2) (1 / 2) (1 / 2) = false := by
  decide +kernel

/-- A square turning over during the motion is not hit at its later place. -/
theorem C56_order_violated : ∃ (ks : Nat → Key) (x y : ℚ), Increasing ks 2 ∧ LongSides (quadAt ks 2 1) ∧
    TurnsRight (quadAt ks 2 1) ∧ hits (quadAt ks 2 1) x y = true ∧ sample ks 2 1 x y = false := by
  refine ⟨fun i => if i = 0 then ⟨0, ⟨⟨0, 0, 0⟩, ⟨1, 0, 0⟩, ⟨0, 1, 0⟩, ⟨1, 1, 0⟩⟩⟩
    else ⟨1, ⟨⟨1, 0, 0⟩, ⟨0, 0, 0⟩, ⟨1, 1, 0⟩, ⟨0, 1, 0⟩⟩⟩, 1 / 2, 1 / 2, ?_, ?_, ?_, ?_, ?_⟩
  · intro i hi
    have : i = 0 := by omega
    subst this; norm_num
  · rw [(C56_position _ 2 (by norm_num) 1).2.1 (by norm_num) (by norm_num)]
    unfold LongSides dist2; norm_num
  · rw [(C56_position _ 2 (by norm_num) 1).2.1 (by norm_num) (by norm_num)]
    unfold TurnsRight left; norm_num
  · decide +kernel
  · decide +kernel

/-! ## Bounds -/

lemma bounds_seg {ks : Nat → Key} {n d : Nat} (hn : 2 ≤ n) (hinc : Increasing ks n) (hd : 0 < d) {o c : ℚ}
    (hoc : o < c) (h0 : (ks 0).time ≤ o) (h1 : c ≤ (ks (n - 1)).time) :
    (bounds ks n d o c).length = d ∧
    ∀ i, ∀ hi : i < (bounds ks n d o c).length,
      ((bounds ks n d o c)[i]).2 = o + i * ((c - o) / d) ∧
      ∀ t, o + i * ((c - o) / d) ≤ t → t ≤ o + (i + 1) * ((c - o) / d) →
        Within (tightBound ks n t) ((bounds ks n d o c)[i]).1 := by
  have hdq : (0 : ℚ) < d := by exact_mod_cast hd
  have hdt : 0 < (c - o) / d := div_pos (by linarith) hdq
  have hdd : (d : ℚ) * ((c - o) / d) = c - o := by field_simp
  have hle : (c - o) / d ≤ c - o := by
    rw [div_le_iff₀ hdq]
    have : (1 : ℚ) ≤ d := by exact_mod_cast hd
    nlinarith
  have hI : BuildInv ks n ⟨o + (c - o) / d, 0, 1, bound (ks 0).q⟩ (ks 0).time :=
    ⟨by dsimp only; omega, (seg_left ks 0).symm, le_refl _, (hinc 0 (by omega)).le, le_refl _, by dsimp only; omega,
      le_refl _, by dsimp only; linarith⟩
  have hB := buildLoop_spec hinc hdt d _ _ hI (by dsimp only; linarith) (by dsimp only; linarith)
  dsimp only at hB
  refine ⟨hB.1, ?_⟩
  intro i hi
  obtain ⟨a, b⟩ := hB.2 i hi
  have hEq : o + (c - o) / d - (c - o) / d = o := by ring
  rw [hEq] at a b
  refine ⟨a, ?_⟩
  intro t ht1 ht2
  have hi0 : (0 : ℚ) ≤ i * ((c - o) / d) := mul_nonneg (Nat.cast_nonneg _) hdt.le
  have hid : ((i : ℚ) + 1) * ((c - o) / d) ≤ c - o := by
    refine le_trans (mul_le_mul_of_nonneg_right (b := (i : ℚ) + 1) (c := d) ?_ hdt.le) hdd.le
    have : i + 1 ≤ d := by
      have := hB.1; unfold bounds at hi; dsimp only at hi; omega
    exact_mod_cast this
  obtain ⟨k, k1, k2, k3, k4⟩ := tight_seg hn hinc (t := t) (by linarith) (by linarith)
  rw [k4]
  exact b t k ht1 ht2 k1 k2 k3

/-- The shutter interval is divided evenly, and during each of the divisions the micropolygon stays in the bound – if the
keys cover the shutter interval (partial, see `C56_outside_violated`). -/
theorem C56_bounds_partial (ks : Nat → Key) (n d : Nat) (hn : 2 ≤ n) (hinc : Increasing ks n) (hd : 0 < d) (o c : ℚ)
    (hoc : o < c) (h0 : (ks 0).time ≤ o) (h1 : c ≤ (ks (n - 1)).time) :
    (bounds ks n d o c).length = d ∧
    ∀ i, ∀ hi : i < (bounds ks n d o c).length,
      ((bounds ks n d o c)[i]).2 = o + i * ((c - o) / d) ∧
      ∀ t, o + i * ((c - o) / d) ≤ t → t ≤ o + (i + 1) * ((c - o) / d) →
        Within (bound (quadAt ks n t)) ((bounds ks n d o c)[i]).1 := by
  obtain ⟨a, b⟩ := bounds_seg hn hinc hd hoc h0 h1
  exact ⟨a, fun i hi => ⟨(b i hi).1, fun t h h' => (quad_tight hn t).trans ((b i hi).2 t h h')⟩⟩

example : Increasing exampleKeys 3 := by
  intro i _; unfold exampleKeys; push_cast; linarith

example : (bounds exampleKeys 3 4 0 2).map (fun p => (p.1.xMin, p.1.xMax, p.2)) =
    [(0, 3, 0), (2, 5, 1/2), (4, 7, 1), (6, 9, 3/2)] := by decide +kernel

/-- The number of divisions is at least one and at most the limit, if the first key does not have a bound of size zero. -/
theorem C56_divisions (ks : Nat → Key) (n timeRanges : Nat) (ht : 0 < timeRanges)
    (hs : (bound (ks 0).q).xMin < (bound (ks 0).q).xMax ∨ (bound (ks 0).q).yMin < (bound (ks 0).q).yMax) :
    ∃ d, divisions ks n timeRanges = some d ∧ 0 < d ∧ d ≤ timeRanges := by
  unfold divisions
  dsimp only
  rw [if_neg]
  · refine ⟨_, rfl, ?_, min_le_right _ _⟩
    exact lt_min (lt_of_lt_of_le one_pos (le_max_left _ _)) ht
  · intro h
    have a := sq_nonneg ((bound (ks 0).q).xMax - (bound (ks 0).q).xMin)
    have b := sq_nonneg ((bound (ks 0).q).yMax - (bound (ks 0).q).yMin)
    rcases hs with hs | hs
    · have := sq_pos_of_pos (sub_pos.mpr hs); linarith
    · have := sq_pos_of_pos (sub_pos.mpr hs); linarith

example : divisions exampleKeys 3 16 = some 5 := by decide +kernel

/-- A micropolygon that is a point in the first key: the number of divisions comes from a division by zero. -/
theorem C56_divisions_violated : ∃ ks : Nat → Key, Increasing ks 2 ∧ buildBoundList ks 2 16 0 1 = none := by
  refine ⟨fun i => if i = 0 then ⟨0, ⟨⟨0, 0, 0⟩, ⟨0, 0, 0⟩, ⟨0, 0, 0⟩, ⟨0, 0, 0⟩⟩⟩
    else ⟨1, ⟨⟨0, 0, 0⟩, ⟨1, 0, 0⟩, ⟨0, 1, 0⟩, ⟨1, 1, 0⟩⟩⟩, ?_, ?_⟩
  · intro i hi
    have : i = 0 := by omega
    subst this; norm_num
  · unfold buildBoundList divisions
    rw [if_neg (by norm_num), if_pos (by decide +kernel)]
    rfl

/-! ## Samples -/

/-- The part of the samples of a division. -/
lemma indices_range {N d m : Nat} (hd : 0 < d) (hm : m < d) (hN : 0 < N) {o c : ℚ} (hoc : o < c) :
    0 ≤ (indices N o c (o + m * ((c - o) / d)) (o + (m + 1) * ((c - o) / d))).1 ∧
    (indices N o c (o + m * ((c - o) / d)) (o + (m + 1) * ((c - o) / d))).1 < N ∧
    (indices N o c (o + m * ((c - o) / d)) (o + (m + 1) * ((c - o) / d))).2 ≤ N ∧
    ∀ (i : Nat) (τ : ℚ), i < N → (i : ℚ) / N ≤ τ → τ < ((i : ℚ) + 1) / N → (m : ℚ) / d ≤ τ → τ < ((m : ℚ) + 1) / d →
      (indices N o c (o + m * ((c - o) / d)) (o + (m + 1) * ((c - o) / d))).1 ≤ i ∧
      (i : ℤ) < (indices N o c (o + m * ((c - o) / d)) (o + (m + 1) * ((c - o) / d))).2 := by
  have hdq : (0 : ℚ) < d := by exact_mod_cast hd
  have hNq : (0 : ℚ) < N := by exact_mod_cast hN
  have hmd : (m : ℚ) + 1 ≤ d := by exact_mod_cast hm
  unfold indices
  by_cases hcl : isClose c o = true
  · rw [if_pos hcl]
    dsimp only
    refine ⟨le_refl _, by exact_mod_cast hN, le_refl _, ?_⟩
    intro i τ hi _ _ _ _
    exact ⟨by positivity, by exact_mod_cast hi⟩
  · rw [if_neg hcl]
    dsimp only
    have e1 : (o + m * ((c - o) / d) - o) * (N / (c - o)) = m * N / d := by
      have : c - o ≠ 0 := by linarith
      field_simp
      ring
    have e2 : (o + (m + 1) * ((c - o) / d) - o) * (N / (c - o)) = (m + 1) * N / d := by
      have : c - o ≠ 0 := by linarith
      field_simp
      ring
    rw [e1, e2, lceil_eq]
    refine ⟨le_max_left _ _, ?_, ?_, ?_⟩
    · refine max_lt (by exact_mod_cast hN) ?_
      rw [Int.floor_lt, div_lt_iff₀ hdq]
      push_cast
      nlinarith
    · rw [Int.ceil_le, div_le_iff₀ hdq]
      push_cast
      nlinarith
    · intro i τ hi h1 h2 h3 h4
      rw [div_le_iff₀ hNq] at h1
      rw [lt_div_iff₀ hNq] at h2
      rw [div_le_iff₀ hdq] at h3
      rw [lt_div_iff₀ hdq] at h4
      refine ⟨max_le (by positivity) ?_, ?_⟩
      · rw [← Int.lt_add_one_iff, Int.floor_lt, div_lt_iff₀ hdq]
        push_cast
        nlinarith
      · rw [Int.lt_ceil, lt_div_iff₀ hdq]
        push_cast
        nlinarith

lemma mem_visitsOf (r : Region) (o c : ℚ) (b : Bound) (t0 t1 : ℚ) (v : Visit) (ht : ¬ (t1 < o ∨ t0 > c)) :
    v ∈ visitsOf r o c b t0 t1 ↔ v.b = b ∧ v.time0 = t0 ∧ v.time1 = t1 ∧ v.py ∈ pixels b.yMin b.yMax r.y0 r.y1 ∧
      v.px ∈ pixels b.xMin b.xMax r.x0 r.x1 ∧
      (v.index = (indices (r.xs * r.ys) o c t0 t1).1 ∨
        (indices (r.xs * r.ys) o c t0 t1).1 + 1 ≤ v.index ∧ v.index < (indices (r.xs * r.ys) o c t0 t1).2) := by
  unfold visitsOf
  rw [if_neg ht]
  dsimp only
  simp only [List.mem_flatMap, List.mem_map, List.mem_cons, mem_upto]
  constructor
  · rintro ⟨py, h1, px, h2, i, h3, rfl⟩
    exact ⟨rfl, rfl, rfl, h1, h2, h3⟩
  · rintro ⟨rfl, rfl, rfl, h1, h2, h3⟩
    exact ⟨v.py, h1, v.px, h2, v.index, h3, rfl⟩

lemma bounds_end {ks : Nat → Key} {n d : Nat} (hn : 2 ≤ n) (hinc : Increasing ks n) (hd : 0 < d) {o c : ℚ}
    (hoc : o < c) (h0 : (ks 0).time ≤ o) (h1 : c ≤ (ks (n - 1)).time) {m : Nat} (hm : m < d) :
    endTime c (bounds ks n d o c) m = o + (m + 1) * ((c - o) / d) := by
  obtain ⟨hl, hb⟩ := bounds_seg hn hinc hd hoc h0 h1
  have hdq : (0 : ℚ) < d := by exact_mod_cast hd
  unfold endTime
  by_cases hlast : m + 1 < d
  · rw [List.getElem?_eq_getElem (by omega), Option.map_some, Option.getD_some, (hb (m + 1) (by omega)).1]
    push_cast; rfl
  · rw [List.getElem?_eq_none (by omega), Option.map_none, Option.getD_none]
    have : (m : ℚ) + 1 = d := by
      have : m + 1 = d := by omega
      exact_mod_cast this
    rw [this]; field_simp; ring

/-- Which samples a moving micropolygon is stored in, for a number of divisions `d`: no sample outside of the arrays of the
pixels is read, and exactly the samples are found that are hit at their times. (Partial: the keys have to cover the shutter
interval, the times of the samples have to be stratified, no sample may lie on the lower or left border of its pixel, see
`C56_outside_violated`, `C56_grid_violated`, `C56_border_violated`; and calculations are exact, see `C56_rounding_violated`.) -/
theorem C56_render_partial (ks : Nat → Key) (n d : Nat) (hn : 2 ≤ n) (hinc : Increasing ks n) (hd : 0 < d) (o c : ℚ)
    (hoc : o < c) (h0 : (ks 0).time ≤ o) (h1 : c ≤ (ks (n - 1)).time) (r : Region) (hN : 0 < r.xs * r.ys)
    (pos : ℤ → ℤ → ℤ → ℚ × ℚ) (tm : ℤ → ℤ → ℤ → ℚ) (ht : Timed (r.xs * r.ys) o c tm) (hp : Inside (r.xs * r.ys) pos) :
    ∃ L, renderBounds ks n r o c pos tm (bounds ks n d o c) = some L ∧
      ∀ px py i : ℤ, (px, py, i) ∈ L ↔ (r.x0 ≤ px ∧ px < r.x1) ∧ (r.y0 ≤ py ∧ py < r.y1) ∧
        (0 ≤ i ∧ i < (r.xs * r.ys : Nat)) ∧ sample ks n (tm px py i) (pos px py i).1 (pos px py i).2 = true := by
  obtain ⟨hl, hb⟩ := bounds_seg hn hinc hd hoc h0 h1
  have hdq : (0 : ℚ) < d := by exact_mod_cast hd
  have hdt : 0 < (c - o) / d := div_pos (by linarith) hdq
  have hnot : ∀ m : Nat, m < d → ¬ (o + ((m : ℚ) + 1) * ((c - o) / d) < o ∨ o + m * ((c - o) / d) > c) := by
    intro m hm
    have a1 : 0 ≤ ((m : ℚ) + 1) * ((c - o) / d) := by positivity
    have a2 : (m : ℚ) * ((c - o) / d) ≤ d * ((c - o) / d) :=
      mul_le_mul_of_nonneg_right (by exact_mod_cast hm.le) hdt.le
    have a3 : (d : ℚ) * ((c - o) / d) = c - o := by field_simp
    rintro (h | h) <;> linarith
  have hvis : ∀ v, v ∈ visits r o c (bounds ks n d o c) ↔ ∃ m, ∃ hm : m < d, ∃ hm' : m < (bounds ks n d o c).length,
      v.b = ((bounds ks n d o c)[m]).1 ∧
      v.time0 = o + m * ((c - o) / d) ∧ v.time1 = o + (m + 1) * ((c - o) / d) ∧
      v.py ∈ pixels v.b.yMin v.b.yMax r.y0 r.y1 ∧ v.px ∈ pixels v.b.xMin v.b.xMax r.x0 r.x1 ∧
      (v.index = (indices (r.xs * r.ys) o c (o + m * ((c - o) / d)) (o + (m + 1) * ((c - o) / d))).1 ∨
        (indices (r.xs * r.ys) o c (o + m * ((c - o) / d)) (o + (m + 1) * ((c - o) / d))).1 + 1 ≤ v.index ∧
        v.index < (indices (r.xs * r.ys) o c (o + m * ((c - o) / d)) (o + (m + 1) * ((c - o) / d))).2) := by
    intro v
    rw [mem_visits]
    constructor
    · rintro ⟨m, hm, h⟩
      have hm' : m < d := by omega
      rw [(hb m hm).1, bounds_end hn hinc hd hoc h0 h1 hm', mem_visitsOf _ _ _ _ _ _ _ (hnot m hm')] at h
      obtain ⟨e1, e2, e3, e4, e5, e6⟩ := h
      exact ⟨m, hm', hm, e1, e2, e3, by rw [e1]; exact e4, by rw [e1]; exact e5, e6⟩
    · rintro ⟨m, hm', hm, e1, e2, e3, e4, e5, e6⟩
      refine ⟨m, hm, ?_⟩
      rw [(hb m hm).1, bounds_end hn hinc hd hoc h0 h1 hm', mem_visitsOf _ _ _ _ _ _ _ (hnot m hm')]
      exact ⟨e1, e2, e3, by rw [← e1]; exact e4, by rw [← e1]; exact e5, e6⟩
  have hrange : ∀ v ∈ visits r o c (bounds ks n d o c), 0 ≤ v.index ∧ v.index < (r.xs * r.ys : Nat) := by
    intro v hv
    obtain ⟨m, hm, -, -, -, -, -, -, h⟩ := (hvis v).mp hv
    obtain ⟨a, b, c', -⟩ := indices_range hd hm hN hoc
    rcases h with h | h <;> omega
  unfold renderBounds
  dsimp only
  rw [if_pos (by rw [List.all_eq_true]; intro v hv; simpa using hrange v hv)]
  refine ⟨_, rfl, ?_⟩
  intro px py i
  simp only [List.mem_map, List.mem_filter, Prod.mk.injEq]
  constructor
  · rintro ⟨v, ⟨hv, htest⟩, rfl, rfl, rfl⟩
    have hr := hrange v hv
    obtain ⟨m, hm, -, -, -, -, hy, hx, -⟩ := (hvis v).mp hv
    rw [mem_pixels] at hx hy
    unfold Visit.test at htest
    dsimp only at htest
    rw [Bool.and_eq_true] at htest
    exact ⟨hx.1, hy.1, hr, htest.2⟩
  · rintro ⟨hx, hy, hi, hs⟩
    obtain ⟨j, rfl⟩ := Int.eq_ofNat_of_zero_le hi.1
    have hj : j < r.xs * r.ys := by exact_mod_cast hi.2
    obtain ⟨τ, t1, t2, t3⟩ := ht px py j hj
    obtain ⟨⟨p1, p2⟩, p3, p4⟩ := hp px py j hj
    have hNq : (0 : ℚ) < (r.xs * r.ys : Nat) := by exact_mod_cast hN
    have hτ0 : 0 ≤ τ := le_trans (by positivity) t1
    have hτ1 : τ < 1 := by
      refine lt_of_lt_of_le t2 ?_
      rw [div_le_one hNq]
      exact_mod_cast hj
    -- the division
    have hfl0 : 0 ≤ ⌊τ * d⌋ := Int.floor_nonneg.mpr (by positivity)
    obtain ⟨m, hmEq⟩ := Int.eq_ofNat_of_zero_le hfl0
    have hf1 : (m : ℚ) ≤ τ * d := by
      have := Int.floor_le (τ * d); rw [hmEq] at this; exact_mod_cast this
    have hf2 : τ * d < (m : ℚ) + 1 := by
      have := Int.lt_floor_add_one (τ * d); rw [hmEq] at this; exact_mod_cast this
    have hm : m < d := by
      have : (m : ℚ) < d := by nlinarith
      exact_mod_cast this
    have hmd1 : (m : ℚ) / d ≤ τ := by rw [div_le_iff₀ hdq]; exact hf1
    have hmd2 : τ < ((m : ℚ) + 1) / d := by rw [lt_div_iff₀ hdq]; exact hf2
    have g1 : o + m * ((c - o) / d) ≤ tm px py j := by
      rw [t3]
      have := mul_le_mul_of_nonneg_left hmd1 (show (0 : ℚ) ≤ c - o by linarith)
      have e : (c - o) * ((m : ℚ) / d) = m * ((c - o) / d) := by ring
      linarith
    have g2 : tm px py j ≤ o + ((m : ℚ) + 1) * ((c - o) / d) := by
      rw [t3]
      have := mul_le_mul_of_nonneg_left hmd2.le (show (0 : ℚ) ≤ c - o by linarith)
      have e : (c - o) * (((m : ℚ) + 1) / d) = (m + 1) * ((c - o) / d) := by ring
      linarith
    have hlm : m < (bounds ks n d o c).length := by omega
    have hW := (hb m hlm).2 _ g1 g2
    have hcont : ((bounds ks n d o c)[m]).1.contains (pos px py j).1 (pos px py j).2 = true := by
      unfold sample at hs
      rw [Bool.and_eq_true] at hs
      exact hW.contains hs.1
    obtain ⟨c1, c2, c3, c4⟩ := (contains_iff _ _ _).mp hcont
    obtain ⟨-, -, -, hidx⟩ := indices_range (N := r.xs * r.ys) hd hm hN hoc
    obtain ⟨i1, i2⟩ := hidx j τ hj t1 t2 hmd1 hmd2
    refine ⟨⟨((bounds ks n d o c)[m]).1, o + m * ((c - o) / d), o + (m + 1) * ((c - o) / d), px, py, j⟩, ⟨?_, ?_⟩,
      rfl, rfl, rfl⟩
    · rw [hvis]
      refine ⟨m, hm, hlm, rfl, rfl, rfl, ?_, ?_, ?_⟩
      · rw [mem_pixels]
        refine ⟨hy, ?_, ?_⟩
        · rw [← Int.lt_add_one_iff, Int.floor_lt]; push_cast; linarith
        · rw [Int.lt_ceil]; linarith
      · rw [mem_pixels]
        refine ⟨hx, ?_, ?_⟩
        · rw [← Int.lt_add_one_iff, Int.floor_lt]; push_cast; linarith
        · rw [Int.lt_ceil]; linarith
      · dsimp only; omega
    · unfold Visit.test
      dsimp only
      rw [Bool.and_eq_true, Bool.and_eq_true]
      refine ⟨⟨?_, hcont⟩, hs⟩
      simp only [Bool.not_eq_true', Bool.or_eq_false_iff, decide_eq_false_iff_not, not_lt, gt_iff_lt]
      exact ⟨g1, g2⟩

lemma visits_eq (r : Region) (o c : ℚ) (z : Bound × ℚ) : ∀ bs : List (Bound × ℚ), visits r o c bs =
    (List.range bs.length).flatMap fun i => visitsOf r o c (bs.getD i z).1 (bs.getD i z).2 (endTime c bs i)
  | [] => rfl
  | [(b, t)] => by
    unfold visits
    simp [endTime]
  | (b, t) :: (b', t') :: l => by
    unfold visits
    rw [visits_eq r o c z ((b', t') :: l), List.length_cons (a := (b, t)), List.range_succ_eq_map, List.flatMap_cons,
      List.flatMap_map]
    simp [endTime]

lemma nodup_visitsOf (r : Region) (o c : ℚ) (b : Bound) (t0 t1 : ℚ) :
    ((visitsOf r o c b t0 t1).map fun v => (v.px, v.py, v.index)).Nodup := by
  unfold visitsOf
  by_cases h : t1 < o ∨ t0 > c
  · rw [if_pos h]; exact List.nodup_nil
  · rw [if_neg h]
    dsimp only
    rw [List.map_flatMap]
    simp only [List.map_flatMap, List.map_map]
    unfold pixels
    refine nodup_flatMap _ _ (nodup_upto _ _) ?_ ?_
    · intro py _
      refine nodup_flatMap _ _ (nodup_upto _ _) ?_ ?_
      · intro px _
        refine List.Nodup.map ?_ ?_
        · intro i j hij
          simpa using hij
        · rw [List.nodup_cons]
          refine ⟨?_, nodup_upto _ _⟩
          rw [mem_upto]; omega
      · intro px _ px' _ z hz hz'
        simp only [List.mem_map, Function.comp] at hz hz'
        obtain ⟨i, -, rfl⟩ := hz
        obtain ⟨i', -, h'⟩ := hz'
        simp only [Prod.mk.injEq] at h'
        exact h'.1.symm
    · intro py _ py' _ z hz hz'
      simp only [List.mem_flatMap, List.mem_map, Function.comp] at hz hz'
      obtain ⟨px, -, i, -, rfl⟩ := hz
      obtain ⟨px', -, i', -, h'⟩ := hz'
      simp only [Prod.mk.injEq] at h'
      exact h'.2.1.symm

/-- A micropolygon is stored at most once in a sample – if the time of no sample is the boundary of two divisions (partial,
see `C56_once_violated`). -/
theorem C56_once_partial (ks : Nat → Key) (n d : Nat) (hn : 2 ≤ n) (hinc : Increasing ks n) (hd : 0 < d) (o c : ℚ)
    (hoc : o < c) (h0 : (ks 0).time ≤ o) (h1 : c ≤ (ks (n - 1)).time) (r : Region)
    (pos : ℤ → ℤ → ℤ → ℚ × ℚ) (tm : ℤ → ℤ → ℤ → ℚ)
    (hb : ∀ (px py i : ℤ) (m : Nat), 0 < m → m < d → tm px py i ≠ o + m * ((c - o) / d))
    (L : List (ℤ × ℤ × ℤ)) (hL : renderBounds ks n r o c pos tm (bounds ks n d o c) = some L) : L.Nodup := by
  obtain ⟨hl, hbs⟩ := bounds_seg hn hinc hd hoc h0 h1
  have hdq : (0 : ℚ) < d := by exact_mod_cast hd
  have hdt : 0 < (c - o) / d := div_pos (by linarith) hdq
  unfold renderBounds at hL
  dsimp only at hL
  split_ifs at hL
  cases hL
  rw [visits_eq r o c (bound (ks 0).q, o), List.filter_flatMap, List.map_flatMap]
  have htimes : ∀ m, m < (bounds ks n d o c).length → ∀ v, v ∈ (visitsOf r o c
      ((bounds ks n d o c).getD m (bound (ks 0).q, o)).1 ((bounds ks n d o c).getD m (bound (ks 0).q, o)).2
      (endTime c (bounds ks n d o c) m)).filter (fun v => v.test ks n pos tm) →
      o + m * ((c - o) / d) ≤ tm v.px v.py v.index ∧ tm v.px v.py v.index ≤ o + (m + 1) * ((c - o) / d) := by
    intro m hm v hv
    rw [List.mem_filter] at hv
    obtain ⟨hv, htest⟩ := hv
    unfold Visit.test at htest
    simp only [Bool.and_eq_true, Bool.not_eq_true', Bool.or_eq_false_iff, decide_eq_false_iff_not, not_lt] at htest
    rw [List.getD_eq_getElem _ _ hm, (hbs m hm).1, bounds_end hn hinc hd hoc h0 h1 (by omega)] at hv
    have hnot : ¬ (o + ((m : ℚ) + 1) * ((c - o) / d) < o ∨ o + m * ((c - o) / d) > c) := by
      intro hc
      unfold visitsOf at hv
      rw [if_pos hc] at hv
      simp at hv
    obtain ⟨-, e2, e3, -⟩ := (mem_visitsOf _ _ _ _ _ _ _ hnot).mp hv
    have := htest.1.1
    rw [e2, e3] at this
    exact ⟨this.1, this.2⟩
  refine nodup_flatMap _ _ List.nodup_range ?_ ?_
  · intro m _
    exact List.Nodup.sublist (List.Sublist.map _ List.filter_sublist) (nodup_visitsOf r o c _ _ _)
  · have key : ∀ a b, a < b → b < (bounds ks n d o c).length → ∀ v w : Visit,
        tm v.px v.py v.index ≤ o + ((a : ℚ) + 1) * ((c - o) / d) → o + (b : ℚ) * ((c - o) / d) ≤ tm w.px w.py w.index →
        v.px = w.px → v.py = w.py → v.index = w.index → False := by
      intro a b hab hb' v w h1 h2 e1 e2 e3
      rw [e1, e2, e3] at h1
      have hab' : (a : ℚ) + 1 ≤ b := by exact_mod_cast hab
      have := mul_le_mul_of_nonneg_right hab' hdt.le
      exact hb w.px w.py w.index b (by omega) (by omega) (by linarith)
    intro a ha b hb' z hz hz'
    rw [List.mem_range] at ha hb'
    rw [List.mem_map] at hz hz'
    obtain ⟨v, hv, rfl⟩ := hz
    obtain ⟨w, hw, hEq⟩ := hz'
    simp only [Prod.mk.injEq] at hEq
    have tv := htimes a ha v hv
    have tw := htimes b hb' w hw
    rcases Nat.lt_trichotomy a b with h | h | h
    · exact (key a b h hb' v w tv.2 tw.1 hEq.1.symm hEq.2.1.symm hEq.2.2.symm).elim
    · exact h
    · exact (key b a h ha w v tw.2 tv.1 hEq.1 hEq.2.1 hEq.2.2).elim

/-- The jittered samples (C54) have the times that are needed. -/
theorem C56_jittered (xs ys : Nat) (o c : ℚ) (pix : ℤ → ℤ → Verif.Core.Sampler.Pixel)
    (h : ∀ px py : ℤ, Verif.Core.Sampler.GoodPixel xs ys ((px : ℚ), (py : ℚ)) o c (pix px py)) :
    Timed (xs * ys) o c fun px py i => ((pix px py).samples i.toNat).time := by
  intro px py i hi
  obtain ⟨t, ht, he⟩ := (h px py).times
  obtain ⟨h1, h2⟩ := ht i hi
  exact ⟨t i, h1, h2, by dsimp only; rw [Int.toNat_natCast, he i hi]⟩

/-! ## Examples and disagreements -/

/-- Four samples per pixel, all in its middle, with times in the middle of the parts of the shutter interval from 0 to 1. -/
def midPos (px py _i : ℤ) : ℚ × ℚ := ((px : ℚ) + 1 / 2, (py : ℚ) + 1 / 2)
def midTime (_px _py i : ℤ) : ℚ := ((i : ℚ) + 1 / 2) / 4

lemma midPos_inside : Inside 4 midPos := by
  intro px py i _
  unfold midPos
  refine ⟨⟨?_, ?_⟩, ?_, ?_⟩ <;> dsimp only <;> linarith

lemma midTime_timed : Timed 4 0 1 midTime := by
  intro px py i _
  refine ⟨((i : ℚ) + 1 / 2) / 4, ?_, ?_, ?_⟩
  · push_cast; linarith
  · push_cast; linarith
  · unfold midTime; push_cast; ring

/-- The square moving from 0 to 4, in pixels `0 … 7`. -/
example : renderMotion exampleKeys 2 ⟨0, 8, 0, 1, 2, 2⟩ 0 1 midPos midTime =
    some [(0, 0, 0), (1, 0, 1), (2, 0, 2), (3, 0, 3)] := by decide +kernel

/-- The shutter open for longer than the object moves: the bounds follow the motion beyond the last key, the object rests
there, and is not found. -/
theorem C56_outside_violated : ∃ (ks : Nat → Key) (L : List (ℤ × ℤ × ℤ)), Increasing ks 2 ∧
    renderMotion ks 2 ⟨0, 8, 0, 1, 2, 2⟩ 0 1 midPos midTime = some L ∧
    sample ks 2 (midTime 4 0 3) (midPos 4 0 3).1 (midPos 4 0 3).2 = true ∧ (4, 0, 3) ∉ L := by
  refine ⟨fun i => ⟨i / 4, (exampleKeys i).q⟩, [(2, 0, 0), (4, 0, 1)], ?_, ?_, ?_, ?_⟩
  · intro i _; push_cast; linarith
  · decide +kernel
  · decide +kernel
  · decide +kernel

/-- A sample with a time on the boundary of two divisions is stored twice. -/
theorem C56_once_violated : ∃ (tm : ℤ → ℤ → ℤ → ℚ) (L : List (ℤ × ℤ × ℤ)), Timed 3 0 1 tm ∧
    renderMotion exampleKeys 2 ⟨0, 8, 0, 1, 3, 1⟩ 0 1 midPos tm = some L ∧ ¬ L.Nodup := by
  refine ⟨fun _ _ i => ((i : ℚ) + 1 / 2) / 3, [(1, 0, 0), (2, 0, 1), (2, 0, 1), (3, 0, 2)], ?_, ?_, ?_⟩
  · intro px py i _
    refine ⟨((i : ℚ) + 1 / 2) / 3, ?_, ?_, ?_⟩
    · push_cast; linarith
    · push_cast; linarith
    · push_cast; ring
  · decide +kernel
  · decide +kernel

/-- With the regular sampler all times are the opening of the shutter (C54_grid_times_violated). A moving micropolygon is
then tested against the samples of the first division only: the last two of four are lost. -/
theorem C56_grid_violated : ∃ L : List (ℤ × ℤ × ℤ),
    renderMotion exampleKeys 2 ⟨0, 8, 0, 1, 2, 2⟩ 0 1 midPos (fun _ _ _ => 0) = some L ∧
    (∀ i, 0 ≤ i → i < 4 → sample exampleKeys 2 0 (midPos 0 0 i).1 (midPos 0 0 i).2 = true) ∧
    (0, 0, 0) ∈ L ∧ (0, 0, 1) ∈ L ∧ (0, 0, 2) ∉ L ∧ (0, 0, 3) ∉ L := by
  refine ⟨[(0, 0, 0), (0, 0, 1)], by decide +kernel, ?_, by decide +kernel, by decide +kernel, by decide +kernel,
    by decide +kernel⟩
  intro i _ _
  show sample exampleKeys 2 0 (midPos 0 0 0).1 (midPos 0 0 0).2 = true
  decide +kernel

/-- A sample on the left border of its pixel that the right edge of the micropolygon meets is hit, but not looked at. -/
theorem C56_border_violated : ∃ (ks : Nat → Key) (pos : ℤ → ℤ → ℤ → ℚ × ℚ) (L : List (ℤ × ℤ × ℤ)), Increasing ks 2 ∧
    (∀ px py i : ℤ, ((px : ℚ) ≤ (pos px py i).1 ∧ (pos px py i).1 < px + 1) ∧
      ((py : ℚ) ≤ (pos px py i).2 ∧ (pos px py i).2 < py + 1)) ∧
    renderMotion ks 2 ⟨0, 8, 0, 8, 2, 2⟩ 0 1 pos midTime = some L ∧
    sample ks 2 (midTime 1 0 0) (pos 1 0 0).1 (pos 1 0 0).2 = true ∧ (1, 0, 0) ∉ L := by
  refine ⟨fun i => ⟨i, ⟨⟨0,1,0⟩, ⟨1,1,0⟩, ⟨0,0,0⟩, ⟨1,0,0⟩⟩⟩, fun px py _ => ((px : ℚ), (py : ℚ) + 1 / 2), [], ?_, ?_, ?_,
    ?_, ?_⟩
  · intro i _; push_cast; linarith
  · intro px py i
    refine ⟨⟨?_, ?_⟩, ?_, ?_⟩ <;> dsimp only <;> linarith
  · decide +kernel
  · decide +kernel
  · decide +kernel

/-! ## Rounding -/

open Verif.Math.Random in
/-- Numbers of 24 bits between two powers of two are multiples of a common unit. -/
lemma rep_grid {y : ℚ} (h : Rep 24 y) {k : ℤ} (h1 : (2 : ℚ) ^ k ≤ y) (h2 : y < 2 ^ (k + 1)) :
    ∃ m : ℤ, y = m * 2 ^ (k - 23) := by
  have hk : (0 : ℚ) < 2 ^ k := by positivity
  obtain ⟨m, e, m1, m2, rfl⟩ := rep_normal h (by linarith)
  have he : (0 : ℚ) < 2 ^ e := by positivity
  have m1' : (2 : ℚ) ^ (23 : ℤ) ≤ m := by norm_num; exact_mod_cast m1
  have m2' : (m : ℚ) < 2 ^ (24 : ℤ) := by norm_num; exact_mod_cast m2
  have a1 : (2 : ℚ) ^ (23 + e) < 2 ^ (k + 1) := by
    rw [zpow_add₀ (by norm_num)]
    exact lt_of_le_of_lt (mul_le_mul_of_nonneg_right m1' he.le) h2
  have a2 : (2 : ℚ) ^ k < 2 ^ (24 + e) := by
    rw [zpow_add₀ (by norm_num)]
    exact lt_of_le_of_lt h1 (mul_lt_mul_of_pos_right m2' he)
  rw [zpow_lt_zpow_iff_right₀ (by norm_num)] at a1 a2
  exact ⟨m, by rw [show e = k - 23 by omega]⟩

open Verif.Math.Random in
/-- With rounding, the index of the last sample can exceed the number of samples of a pixel: 3 × 3 samples and a shutter
open from 0 to 0.281 (the `float` nearest to it) give the indices up to 9, one behind the last sample. Whatever is there
is read as a sample. -/
theorem C56_rounding_violated (fl : ℚ → ℚ) (hfl : Nearest 24 fl) :
    Rep 24 (9428795 / 2 ^ 25) ∧ |(9428795 / 2 ^ 25 : ℚ) - 281 / 1000| < 1 / 2 ^ 26 ∧
    isClose (9428795 / 2 ^ 25) 0 = false ∧ lastIndexRounded fl 9 0 (9428795 / 2 ^ 25) = 10 := by
  have hx : Rep 24 (9428795 / 2 ^ 25) := ⟨9428795, -25, by norm_num, by norm_num⟩
  have hfx : fl (9428795 / 2 ^ 25) = 9428795 / 2 ^ 25 :=
    le_antisymm (hfl.le hx (le_refl _)) (hfl.ge hx (le_refl _))
  refine ⟨hx, by norm_num [abs_lt], by decide +kernel, ?_⟩
  unfold lastIndexRounded
  dsimp only
  rw [sub_zero, hfx]
  have hT : Rep 24 (1049509 / 32768) := ⟨1049509, -15, by norm_num, by norm_num⟩
  have ht1 : fl ((9 : Nat) / (9428795 / 2 ^ 25)) ≤ 1049509 / 32768 := hfl.le hT (by norm_num)
  have ht : fl ((9 : Nat) / (9428795 / 2 ^ 25)) = 1049509 / 32768 := by
    refine le_antisymm ht1 ?_
    by_contra hc
    push Not at hc
    obtain ⟨hr, hn⟩ := hfl ((9 : Nat) / (9428795 / 2 ^ 25))
    have hd := hn _ hT
    generalize fl ((9 : Nat) / (9428795 / 2 ^ 25)) = y at *
    have hlow : (32 : ℚ) ≤ y := by
      have := (abs_le.mp (hd.trans (le_of_eq (abs_of_nonpos (by norm_num))))).2
      norm_num at this
      linarith
    obtain ⟨m, hm⟩ := rep_grid hr (k := 5) (by norm_num; exact hlow) (by norm_num; linarith)
    have hm1 : (m : ℚ) < 1049509 * 8 := by
      rw [hm] at hc; norm_num at hc; linarith
    have hm2 : m ≤ 1049509 * 8 - 1 := by
      have : m < 1049509 * 8 := by exact_mod_cast hm1
      omega
    have hm3 : (m : ℚ) ≤ 1049509 * 8 - 1 := by exact_mod_cast hm2
    have := (abs_le.mp (hd.trans (le_of_eq (abs_of_nonpos (by norm_num))))).2
    rw [hm] at this
    norm_num at this
    linarith
  rw [ht, lceil_eq]
  have hp : Rep 24 (9437185 / 1048576) := ⟨9437185, -20, by norm_num, by norm_num⟩
  obtain ⟨-, hn⟩ := hfl (9428795 / 2 ^ 25 * (1049509 / 32768))
  have hd := hn _ hp
  have hup : fl (9428795 / 2 ^ 25 * (1049509 / 32768)) ≤ 9437185 / 1048576 := hfl.le hp (by norm_num)
  generalize fl (9428795 / 2 ^ 25 * (1049509 / 32768)) = y at *
  have := (abs_le.mp (hd.trans (le_of_eq (abs_of_nonpos (by norm_num))))).2
  rw [Int.ceil_eq_iff]
  norm_num at this ⊢
  exact ⟨by linarith, by linarith⟩

open Verif.Math.Random in
/-- With exact numbers the index is the number of samples. -/
theorem C56_last_index (numSamples : Nat) (o c : ℚ) (h : o < c) : lastIndexRounded id numSamples o c = numSamples := by
  unfold lastIndexRounded
  dsimp only [id]
  have : c - o ≠ 0 := by linarith
  rw [lceil_eq, mul_div_cancel₀ _ this, Int.ceil_natCast]

end Verif.Core.Motion
