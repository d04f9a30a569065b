import Verif.Tex.Mipmap
import Mathlib.Tactic.Linarith
import Mathlib.Tactic.Ring
import Mathlib.Tactic.NormNum

/-!
# C35: the mipmap pyramid is consistent
-/

namespace Verif.Tex.Mipmap

theorem f32_small {n : Nat} (h : n ≤ 2 ^ 24) : f32OfNat n = n := by
  by_cases h' : n < 2 ^ 24
  · unfold f32OfNat; rw [if_pos h']
  · obtain rfl : n = 2 ^ 24 := by omega
    decide +kernel

theorem half_small {n : Nat} (h : n ≤ 2 ^ 24) : half n = (n + 1) / 2 := by
  unfold half; rw [f32_small h]

/-- Rounding changes a size by less than a half. -/
theorem f32_le (n : Nat) : 2 ^ 23 * f32OfNat n ≤ 2 ^ 23 * n + n := by
  unfold f32OfNat
  by_cases h : n < 2 ^ 24
  · rw [if_pos h]; omega
  rw [if_neg h]
  have hn : n ≠ 0 := by omega
  have hl : 2 ^ n.log2 ≤ n := Nat.log2_self_le hn
  have h24 : 24 ≤ n.log2 := (Nat.le_log2 hn).mpr (by omega)
  have he : 2 ^ 23 * 2 ^ (n.log2 - 23) ≤ n := by
    rw [← Nat.pow_add]
    rw [show 23 + (n.log2 - 23) = n.log2 by omega]
    exact hl
  have hq : n / 2 ^ (n.log2 - 23) * 2 ^ (n.log2 - 23) ≤ n := Nat.div_mul_le_self _ _
  simp only
  split
  · rw [Nat.add_mul, Nat.one_mul]; omega
  · omega

theorem half_lt {n : Nat} (h : 1 < n) : half n < n := by
  have := f32_le n
  unfold half
  by_cases h' : n ≤ 2 ^ 24
  · rw [f32_small h']; omega
  · omega

theorem half_pos {n : Nat} (h : 0 < n) : 0 < half n := by
  by_cases h' : n ≤ 2 ^ 24
  · rw [half_small h']; omega
  · have hn : n ≠ 0 := by omega
    unfold half f32OfNat
    rw [if_neg (by omega)]
    have hq : 0 < n / 2 ^ (n.log2 - 23) := by
      apply Nat.div_pos _ (by positivity)
      exact le_trans (Nat.pow_le_pow_right (by omega) (by omega)) (Nat.log2_self_le hn)
    have h2 : 0 < 2 ^ (n.log2 - 23) := by positivity
    have := Nat.mul_pos hq h2
    simp only
    split
    · rw [Nat.add_mul]; omega
    · omega

theorem half_one : half 1 = 1 := by decide +kernel

/-- The chain: what follows an image is its halves, and it ends at 1x1. -/
inductive Chain : List (Nat × Nat) → Prop
  | last : Chain [(1, 1)]
  | cons {w h : Nat} {l} : (w > 1 ∨ h > 1) → Chain ((half w, half h) :: l) →
      Chain ((w, h) :: (half w, half h) :: l)

theorem written_chain : ∀ (n w h : Nat), w + h ≤ n → 0 < w → 0 < h →
    ∃ l, Chain ((w, h) :: l) ∧ ∀ f, n ≤ f → written f w h = some ((w, h) :: l) := by
  intro n
  induction n with
  | zero => intro w h; omega
  | succ n ih =>
    intro w h hle hw hh
    by_cases h1 : w > 1 ∨ h > 1
    · have hsum : half w + half h ≤ n := by
        have a : half w ≤ w := by
          by_cases e : w = 1
          · rw [e, half_one]
          · exact le_of_lt (half_lt (by omega))
        have b : half h ≤ h := by
          by_cases e : h = 1
          · rw [e, half_one]
          · exact le_of_lt (half_lt (by omega))
        rcases h1 with h1 | h1
        · have := half_lt h1; omega
        · have := half_lt h1; omega
      obtain ⟨l, hc, hl⟩ := ih (half w) (half h) hsum (half_pos hw) (half_pos hh)
      refine ⟨(half w, half h) :: l, .cons h1 hc, ?_⟩
      intro f hf
      obtain ⟨f, rfl⟩ : ∃ g, f = g + 1 := ⟨f - 1, by omega⟩
      unfold written
      rw [if_pos h1, hl f (by omega)]
      rfl
    · have : w = 1 := by omega
      have : h = 1 := by omega
      subst w h
      refine ⟨[], .last, ?_⟩
      intro f hf
      obtain ⟨f, rfl⟩ : ∃ g, f = g + 1 := ⟨f - 1, by omega⟩
      unfold written
      rw [if_neg h1]

/-- The integers that single precision holds exactly: a 24 bit number times a power of two. -/
def Single (m : Nat) : Prop := ∃ c e, c < 2 ^ 24 ∧ m = c * 2 ^ e

/-- The two single precision numbers around `n`, and where `n` lies between them. -/
theorem f32_frame (n : Nat) (hn : 2 ^ 24 ≤ n) : ∃ q e r, 2 ^ 23 ≤ q ∧ q < 2 ^ 24 ∧ r < 2 ^ e ∧ n = q * 2 ^ e + r ∧
    f32OfNat n = (if 2 * r > 2 ^ e ∨ (2 * r = 2 ^ e ∧ q % 2 = 1) then (q + 1) * 2 ^ e else q * 2 ^ e) ∧
    ∀ m, Single m → m ≤ q * 2 ^ e ∨ (q + 1) * 2 ^ e ≤ m := by
  have hn0 : n ≠ 0 := by omega
  have h1 : 2 ^ n.log2 ≤ n := Nat.log2_self_le hn0
  have h2 : n < 2 ^ (n.log2 + 1) := Nat.lt_log2_self
  have h3 : 24 ≤ n.log2 := (Nat.le_log2 hn0).2 hn
  obtain ⟨e, he⟩ : ∃ e, n.log2 = e + 23 := ⟨n.log2 - 23, by omega⟩
  have hP : 0 < 2 ^ e := Nat.two_pow_pos e
  rw [he, Nat.pow_add] at h1
  rw [he, show e + 23 + 1 = e + 24 by omega, Nat.pow_add] at h2
  have hq1 : 2 ^ 23 ≤ n / 2 ^ e := (Nat.le_div_iff_mul_le hP).2 (by rw [Nat.mul_comm]; exact h1)
  have hq2 : n / 2 ^ e < 2 ^ 24 := (Nat.div_lt_iff_lt_mul hP).2 (by rw [Nat.mul_comm]; exact h2)
  refine ⟨n / 2 ^ e, e, n % 2 ^ e, hq1, hq2, Nat.mod_lt _ hP, ?_, ?_, ?_⟩
  · rw [Nat.mul_comm]; exact (Nat.div_add_mod n (2 ^ e)).symm
  · unfold f32OfNat
    rw [if_neg (by omega), he]
    simp only [Nat.add_sub_cancel]
  · rintro m ⟨c, k, hc, rfl⟩
    by_cases hk : e ≤ k
    · obtain ⟨d, rfl⟩ : ∃ d, k = e + d := ⟨k - e, by omega⟩
      have : c * 2 ^ (e + d) = (c * 2 ^ d) * 2 ^ e := by rw [Nat.pow_add]; ring
      rw [this]
      rcases Nat.lt_or_ge (n / 2 ^ e) (c * 2 ^ d) with h | h
      · exact Or.inr (Nat.mul_le_mul_right _ h)
      · exact Or.inl (Nat.mul_le_mul_right _ h)
    · left
      have hle : 2 ^ k * 2 ≤ 2 ^ e := by
        rw [← Nat.pow_succ]; exact Nat.pow_le_pow_right (by omega) (by omega)
      calc c * 2 ^ k ≤ 2 ^ 24 * 2 ^ k := Nat.mul_le_mul_right _ hc.le
        _ = 2 ^ 23 * (2 ^ k * 2) := by ring
        _ ≤ 2 ^ 23 * 2 ^ e := Nat.mul_le_mul_left _ hle
        _ ≤ n / 2 ^ e * 2 ^ e := Nat.mul_le_mul_right _ hq1

/-- **C35**, conversion of a size: to the nearest single precision number, and to the even one of two
equally near. -/
theorem C35_conversion (n : Nat) :
    Single (f32OfNat n) ∧
    (∀ m, Single m → max n (f32OfNat n) - min n (f32OfNat n) ≤ max n m - min n m) ∧
    (∀ m, Single m → m ≠ f32OfNat n → max n (f32OfNat n) - min n (f32OfNat n) = max n m - min n m →
      ∃ k, 2 ^ k ∣ f32OfNat n ∧ ¬ 2 ^ k ∣ m) := by
  by_cases hn : n < 2 ^ 24
  · have e : f32OfNat n = n := by unfold f32OfNat; rw [if_pos hn]
    rw [e]
    refine ⟨⟨n, 0, hn, by simp⟩, fun m _ => by omega, fun m _ h1 h2 => absurd h2 (by omega)⟩
  · obtain ⟨q, e, r, h1, h2, h3, h4, h5, h6⟩ := f32_frame n (by omega)
    rw [h5]
    clear h5
    have hmul : (q + 1) * 2 ^ e = q * 2 ^ e + 2 ^ e := by ring
    simp only [hmul] at h6 ⊢
    have hs0 : Single (q * 2 ^ e) := ⟨q, e, h2, rfl⟩
    have hs1 : Single (q * 2 ^ e + 2 ^ e) := by
      by_cases hq : q + 1 < 2 ^ 24
      · exact ⟨q + 1, e, hq, by ring⟩
      · have : q = 2 ^ 24 - 1 := by omega
        refine ⟨2 ^ 23, e + 1, by norm_num, ?_⟩
        rw [this, Nat.pow_succ]; omega
    have heven : q % 2 = 0 → 2 ^ (e + 1) ∣ q * 2 ^ e ∧ ¬ 2 ^ (e + 1) ∣ q * 2 ^ e + 2 ^ e := by
      intro h
      obtain ⟨j, rfl⟩ : ∃ j, q = 2 * j := ⟨q / 2, by omega⟩
      have hd : 2 ^ (e + 1) ∣ 2 * j * 2 ^ e := ⟨j, by rw [Nat.pow_succ]; ring⟩
      refine ⟨hd, fun h' => ?_⟩
      have := Nat.le_of_dvd (Nat.two_pow_pos e) ((Nat.dvd_add_right hd).1 h')
      rw [Nat.pow_succ] at this
      have := Nat.two_pow_pos e
      omega
    have hodd : q % 2 = 1 → 2 ^ (e + 1) ∣ q * 2 ^ e + 2 ^ e ∧ ¬ 2 ^ (e + 1) ∣ q * 2 ^ e := by
      intro h
      obtain ⟨j, rfl⟩ : ∃ j, q = 2 * j + 1 := ⟨q / 2, by omega⟩
      have hd : 2 ^ (e + 1) ∣ (2 * j + 1) * 2 ^ e + 2 ^ e := ⟨j + 1, by rw [Nat.pow_succ]; ring⟩
      refine ⟨hd, fun h' => ?_⟩
      have := Nat.le_of_dvd (Nat.two_pow_pos e) ((Nat.dvd_add_right h').1 hd)
      rw [Nat.pow_succ] at this
      have := Nat.two_pow_pos e
      omega
    generalize hA : q * 2 ^ e = A at *
    generalize hP : 2 ^ e = P at *
    clear hmul
    split_ifs with hc
    · refine ⟨hs1, fun m hm => by have := h6 m hm; omega, fun m hm hne heq => ?_⟩
      have hm' := h6 m hm
      have hmA : m = A ∧ 2 * r = P := by omega
      have hq : q % 2 = 1 := by omega
      exact ⟨e + 1, (hodd hq).1, by rw [hmA.1]; exact (hodd hq).2⟩
    · refine ⟨hs0, fun m hm => by have := h6 m hm; omega, fun m hm hne heq => ?_⟩
      have hm' := h6 m hm
      have hmA : m = A + P ∧ 2 * r = P := by omega
      have hq : q % 2 = 0 := by omega
      exact ⟨e + 1, (heven hq).1, by rw [hmA.1]; exact (heven hq).2⟩

example : f32OfNat (2 ^ 24 + 1) = 2 ^ 24 := by decide +kernel
example : f32OfNat (2 ^ 24 + 3) = 2 ^ 24 + 4 := by decide +kernel

/-- **C35.**  Writing a texture ends, for every size of the base image: the
first image has that size, the last one is 1x1, and from one to the next both
sizes shrink (or stay at 1). -/
theorem C35_written_ends (w h : Nat) (hw : 0 < w) (hh : 0 < h) :
    ∃ l : List (Nat × Nat), (∀ f, w + h ≤ f → written f w h = some l) ∧
      l.head? = some (w, h) ∧ l.getLast? = some (1, 1) ∧
      ∀ i a b, l[i]? = some a → l[i + 1]? = some b →
        (b.1 < a.1 ∨ b.1 = 1 ∧ a.1 = 1) ∧ (b.2 < a.2 ∨ b.2 = 1 ∧ a.2 = 1) := by
  obtain ⟨l, hc, hl⟩ := written_chain (w + h) w h (le_refl _) hw hh
  refine ⟨(w, h) :: l, hl, rfl, ?_, ?_⟩
  · clear hl
    generalize (w, h) :: l = m at hc
    induction hc with
    | last => rfl
    | cons _ _ ih => rw [List.getLast?_cons_cons]; exact ih
  · clear hl
    have key : ∀ m, Chain m → (∀ a ∈ m, 0 < a.1 ∧ 0 < a.2) →
        ∀ i a b, m[i]? = some a → m[i + 1]? = some b →
        (b.1 < a.1 ∨ b.1 = 1 ∧ a.1 = 1) ∧ (b.2 < a.2 ∨ b.2 = 1 ∧ a.2 = 1) := by
      intro m hm
      induction hm with
      | last => intro _ i a b _ h2; simp at h2
      | @cons w h l h1 hc ih =>
        intro hpos i a b ha hb
        cases i with
        | zero =>
          simp only [List.getElem?_cons_zero, Option.some.injEq, zero_add,
            List.getElem?_cons_succ] at ha hb
          subst ha hb
          have hp := hpos (w, h) (by simp)
          simp only at hp ⊢
          constructor
          · by_cases e : w = 1
            · right; rw [e, half_one]; exact ⟨rfl, rfl⟩
            · left; exact half_lt (by omega)
          · by_cases e : h = 1
            · right; rw [e, half_one]; exact ⟨rfl, rfl⟩
            · left; exact half_lt (by omega)
        | succ i =>
          exact ih (fun a ha => hpos a (List.mem_cons_of_mem _ ha)) i a b
            (by simpa using ha) (by simpa using hb)
    apply key _ hc
    -- all sizes are positive
    have pos : ∀ m, Chain m → ∀ w h l, m = (w, h) :: l → 0 < w → 0 < h →
        ∀ a ∈ m, 0 < a.1 ∧ 0 < a.2 := by
      intro m hm
      induction hm with
      | last => intro w h l e _ _ a ha; simp at ha; subst ha; simp
      | @cons w' h' l' h1 hc ih =>
        intro w h l e hw hh a ha
        simp only [List.cons.injEq, Prod.mk.injEq] at e
        obtain ⟨⟨rfl, rfl⟩, _⟩ := e
        rcases List.mem_cons.mp ha with rfl | ha
        · exact ⟨hw, hh⟩
        · exact ih _ _ _ rfl (half_pos hw) (half_pos hh) a ha
    exact pos _ hc w h l rfl hw hh

/-- Sizes of the levels of a chain. -/
theorem chain_sizes : ∀ m, Chain m → ∀ w h l, m = (w, h) :: l → 0 < w → 0 < h → w ≤ 2 ^ 24 →
    h ≤ 2 ^ 24 → ∀ i a, m[i]? = some a →
      a = ((w + 2 ^ i - 1) / 2 ^ i, (h + 2 ^ i - 1) / 2 ^ i) := by
  have step : ∀ w i : Nat, 0 < w → ((w + 1) / 2 + 2 ^ i - 1) / 2 ^ i =
      (w + 2 ^ (i + 1) - 1) / 2 ^ (i + 1) := by
    intro w i hw
    have h2 : 0 < 2 ^ i := by positivity
    rw [Nat.pow_succ, Nat.mul_comm (2 ^ i) 2, ← Nat.div_div_eq_div_mul]
    congr 1
    omega
  intro m hm
  induction hm with
  | last =>
    intro w h l e _ _ _ _ i a ha
    simp only [List.cons.injEq, Prod.mk.injEq] at e
    obtain ⟨⟨rfl, rfl⟩, _⟩ := e
    cases i with
    | zero => simp at ha; subst ha; rfl
    | succ i => simp at ha
  | @cons w' h' l' h1 hc ih =>
    intro w h l e hw hh hw2 hh2 i a ha
    simp only [List.cons.injEq, Prod.mk.injEq] at e
    obtain ⟨⟨rfl, rfl⟩, _⟩ := e
    cases i with
    | zero => simp at ha; subst ha; simp
    | succ i =>
      have := ih (half w') (half h') l' rfl (half_pos hw) (half_pos hh)
        (by rw [half_small hw2]; omega) (by rw [half_small hh2]; omega) i a (by simpa using ha)
      rw [this, half_small hw2, half_small hh2, step _ _ hw, step _ _ hh]

/-- The reader accepts a chain as written, whole. -/
theorem initGo_chain : ∀ m, Chain m → ∀ w h l, m = (w, h) :: l → 0 < w → 0 < h → w ≤ 2 ^ 24 →
    h ≤ 2 ^ 24 → ∀ i xo yo, ∃ ts, initGo w h i xo yo l = some (i + l.length, ts) ∧
      ts.length = l.length := by
  intro m hm
  induction hm with
  | last =>
    intro w h l e _ _ _ _ i xo yo
    simp only [List.cons.injEq, Prod.mk.injEq] at e
    obtain ⟨⟨rfl, rfl⟩, e2⟩ := e
    subst e2
    exact ⟨[], by simp [initGo], rfl⟩
  | @cons w' h' l' h1 hc ih =>
    intro w h l e hw hh hw2 hh2 i xo yo
    simp only [List.cons.injEq, Prod.mk.injEq] at e
    obtain ⟨⟨rfl, rfl⟩, e2⟩ := e
    subst e2
    simp only [initGo]
    rw [if_neg (by omega)]
    have ew : max ((w' + 1) / 2) 1 = half w' := by rw [half_small hw2]; omega
    have eh : max ((h' + 1) / 2) 1 = half h' := by rw [half_small hh2]; omega
    rw [ew, eh, if_neg (by simp)]
    obtain ⟨ts, ht, hlen⟩ := ih (half w') (half h') l' rfl (half_pos hw) (half_pos hh)
      (by rw [half_small hw2]; omega) (by rw [half_small hh2]; omega) (i + 1)
      (if w' % 2 = 0 then xo + 1 / 2 * 2 ^ (i - 1) else xo)
      (if h' % 2 = 0 then yo + 1 / 2 * 2 ^ (i - 1) else yo)
    rw [ht]
    have e : i + 1 + l'.length = i + ((half w', half h') :: l').length := by
      rw [List.length_cons]; omega
    rw [e]
    exact ⟨_, rfl, by simp [hlen]⟩

/-- **C35 (partial: base images of at most 2^24 pixels in each direction).**
What was written is what the reader expects: level `i` is the base size divided
by 2^i, rounded up, the reader raises no error, uses all the levels and has
exactly one transformation for each. -/
theorem C35_reader_partial (w h : Nat) (hw : 0 < w) (hh : 0 < h) (hw2 : w ≤ 2 ^ 24)
    (hh2 : h ≤ 2 ^ 24) :
    ∃ (l : List (Nat × Nat)) (ts : List Trans), written (w + h) w h = some l ∧
      (∀ i a, l[i]? = some a → a = ((w + 2 ^ i - 1) / 2 ^ i, (h + 2 ^ i - 1) / 2 ^ i)) ∧
      initLevels l = some (l.length, ts) ∧ ts.length = l.length := by
  obtain ⟨l, hc, hl⟩ := written_chain (w + h) w h (le_refl _) hw hh
  obtain ⟨ts, ht, hlen⟩ := initGo_chain _ hc w h l rfl hw hh hw2 hh2 1 0 0
  refine ⟨(w, h) :: l, ⟨1, 0, 1, 0⟩ :: ts, hl _ (le_refl _),
    chain_sizes _ hc w h l rfl hw hh hw2 hh2, ?_, by simp [hlen]⟩
  simp only [initLevels, ht, List.length_cons]
  congr 2
  omega

/-- **C35, negation of the general case.**  An image of 2^24 + 1 pixels: the
levels written are not the ones the reader expects, and reading throws. -/
theorem C35_reader_violated :
    ∃ l, written (2 ^ 24 + 2) (2 ^ 24 + 1) 1 = some l ∧ initLevels l = none := by
  obtain ⟨l, hc, hl⟩ := written_chain (2 ^ 24 + 2) (2 ^ 24 + 1) 1 (by omega) (by omega) (by omega)
  refine ⟨_, hl _ (le_refl _), ?_⟩
  generalize hm : (2 ^ 24 + 1, 1) :: l = m at hc
  cases hc with
  | last => simp at hm
  | @cons w h l' h1 hc' =>
    simp only [List.cons.injEq, Prod.mk.injEq] at hm
    obtain ⟨⟨rfl, rfl⟩, _⟩ := hm
    have e1 : half (2 ^ 24 + 1) = 2 ^ 23 := by decide +kernel
    rw [e1]
    simp only [initLevels, initGo]
    rw [if_neg (by omega), if_pos (by left; omega)]

/-! ## Coordinates -/

theorem support_parity (n : Nat) (fw : ℚ) (_h : 0 ≤ fw) :
    0 < filterSupportSize (n % 2 != 0) fw ∧
    (filterSupportSize (n % 2 != 0) fw) % 2 = (n : Int) % 2 := by
  unfold filterSupportSize
  by_cases h : n % 2 = 0
  · simp only [h, bne_self_eq_false, Bool.false_eq_true, if_false]
    omega
  · have : (n % 2 != 0) = true := by simpa using h
    simp only [this, if_true]
    omega

/-- Middle of the pixels `start .. stop - 1`. -/
def middle (r : Int × Int) : ℚ := ((r.1 : ℚ) + ((r.2 : ℚ) - 1)) / 2

theorem middle_eq (n : Nat) (fw : ℚ) (hfw : 0 ≤ fw) (x : Int) :
    middle (sourceRange n fw x) = 2 * x + if n % 2 = 0 then 1 / 2 else 0 := by
  obtain ⟨h1, h2⟩ := support_parity n fw hfw
  unfold sourceRange middle
  simp only
  generalize filterSupportSize (n % 2 != 0) fw = F at *
  rw [Int.tdiv_eq_ediv_of_nonneg (by omega)]
  by_cases h : n % 2 = 0
  · rw [if_pos h]
    have e : (F - 1) / 2 * 2 = F - 2 := by omega
    have e' : (((F - 1) / 2 : Int) : ℚ) = ((F : ℚ) - 2) / 2 := by
      rw [eq_div_iff (by norm_num)]; exact_mod_cast e
    push_cast
    rw [e']
    ring
  · rw [if_neg h]
    have e : (F - 1) / 2 * 2 = F - 1 := by omega
    have e' : (((F - 1) / 2 : Int) : ℚ) = ((F : ℚ) - 1) / 2 := by
      rw [eq_div_iff (by norm_num)]; exact_mod_cast e
    push_cast
    rw [e']
    ring

/-- Two consecutive levels of what the reader computed. -/
theorem initGo_trans : ∀ (l : List (Nat × Nat)) (w h i : Nat) (xo yo : ℚ) (n : Nat) (ts : List Trans),
    0 < i → initGo w h i xo yo l = some (n, ts) → ∀ (k : Nat) (t u : Trans) (s : Nat × Nat),
      ((⟨1 / 2 ^ (i - 1), -xo, 1 / 2 ^ (i - 1), -yo⟩ : Trans) :: ts)[k]? = some t →
      ts[k]? = some u → ((w, h) :: l)[k]? = some s →
      (∀ p, t.x p = 2 * u.x p + if s.1 % 2 = 0 then 1 / 2 else 0) ∧
      (∀ p, t.y p = 2 * u.y p + if s.2 % 2 = 0 then 1 / 2 else 0) := by
  intro l
  induction l with
  | nil =>
    intro w h i xo yo n ts hi hg k t u s ht hu hs
    simp only [initGo, Option.some.injEq, Prod.mk.injEq] at hg
    rw [← hg.2] at hu
    simp at hu
  | cons a rest ih =>
    obtain ⟨fw, fh⟩ := a
    intro w h i xo yo n ts hi hg k t u s ht hu hs
    simp only [initGo] at hg
    by_cases h1 : w = 1 ∧ h = 1
    · rw [if_pos h1] at hg
      simp only [Option.some.injEq, Prod.mk.injEq] at hg
      rw [← hg.2] at hu
      simp at hu
    rw [if_neg h1] at hg
    by_cases h2 : max ((w + 1) / 2) 1 ≠ fw ∨ max ((h + 1) / 2) 1 ≠ fh
    · rw [if_pos h2] at hg; simp at hg
    rw [if_neg h2] at hg
    have e1 : max ((w + 1) / 2) 1 = fw := by
      by_contra hc; exact h2 (Or.inl hc)
    have e2 : max ((h + 1) / 2) 1 = fh := by
      by_contra hc; exact h2 (Or.inr hc)
    rw [e1, e2] at hg
    generalize hX : (if w % 2 = 0 then xo + 1 / 2 * 2 ^ (i - 1) else xo) = xo' at hg
    generalize hY : (if h % 2 = 0 then yo + 1 / 2 * 2 ^ (i - 1) else yo) = yo' at hg
    cases hr : initGo fw fh (i + 1) xo' yo' rest with
    | none => rw [hr] at hg; simp at hg
    | some r =>
      obtain ⟨n', ts'⟩ := r
      rw [hr] at hg
      simp only [Option.some.injEq, Prod.mk.injEq] at hg
      obtain ⟨rfl, rfl⟩ := hg
      cases k with
      | zero =>
        simp only [List.getElem?_cons_zero, Option.some.injEq] at ht hu hs
        subst ht hu hs
        have hp : (2 : ℚ) ^ i = 2 * 2 ^ (i - 1) := by
          obtain ⟨j, rfl⟩ : ∃ j, i = j + 1 := ⟨i - 1, by omega⟩
          rw [pow_succ]; simp; ring
        have hp0 : (2 : ℚ) ^ (i - 1) ≠ 0 := by positivity
        constructor
        · intro p
          simp only [Trans.x, hp, ← hX]
          split <;> field_simp <;> ring
        · intro p
          simp only [Trans.y, hp, ← hY]
          split <;> field_simp <;> ring
      | succ k =>
        have := ih fw fh (i + 1) xo' yo' n' ts' (by omega) hr k t u s
        simp only [Nat.add_sub_cancel] at this
        exact this (by simpa using ht) (by simpa using hu) (by simpa using hs)

/-- **C35.**  For every file the reader accepts, every level and every filter
width: the point of the base image which the reader sends to pixel `x` of the
next level is sent, on this level, to the middle of the pixels that were averaged
into that pixel when the file was made.  (`x` may be any base coordinate; both
directions.) -/
theorem C35_transform (l : List (Nat × Nat)) (n : Nat) (ts : List Trans)
    (hi : initLevels l = some (n, ts)) (k : Nat) (t u : Trans) (s : Nat × Nat)
    (ht : ts[k]? = some t) (hu : ts[k + 1]? = some u) (hs : l[k]? = some s) (fw : ℚ)
    (hfw : 0 ≤ fw) (p : ℚ) (x : Int) :
    (u.x p = x → t.x p = middle (sourceRange s.1 fw x)) ∧
    (u.y p = x → t.y p = middle (sourceRange s.2 fw x)) := by
  cases l with
  | nil => simp [initLevels] at hi
  | cons a rest =>
    obtain ⟨w, h⟩ := a
    simp only [initLevels] at hi
    cases hr : initGo w h 1 0 0 rest with
    | none => rw [hr] at hi; simp at hi
    | some r =>
      obtain ⟨n', ts'⟩ := r
      rw [hr] at hi
      simp only [Option.some.injEq, Prod.mk.injEq] at hi
      obtain ⟨rfl, rfl⟩ := hi
      have := initGo_trans rest w h 1 0 0 n' ts' (by omega) hr k t u s
        (by simpa using ht) (by simpa using hu) hs
      constructor
      · intro e
        rw [this.1 p, middle_eq _ _ hfw, e]
      · intro e
        rw [this.2 p, middle_eq _ _ hfw, e]

/-- Levels of a 6x5 image, with the pixels averaged into pixel 1 of the first
reduced image. -/
example : written 20 6 5 = some [(6, 5), (3, 3), (2, 2), (1, 1)] ∧
    (initLevels [(6, 5), (3, 3), (2, 2), (1, 1)]).map (·.2) =
      some [⟨1, 0, 1, 0⟩, ⟨1 / 2, -1 / 2, 1 / 2, 0⟩, ⟨1 / 4, -1 / 2, 1 / 4, 0⟩,
        ⟨1 / 8, -5 / 2, 1 / 8, -2⟩] ∧
    sourceRange 6 2 1 = (2, 4) ∧ sourceRange 5 2 1 = (1, 4) := by
  refine ⟨by decide +kernel, by decide +kernel, by decide +kernel, by decide +kernel⟩

end Verif.Tex.Mipmap
