import Verif.Core.Sampler
import Mathlib.Tactic.Linarith
import Mathlib.Tactic.Ring
import Mathlib.Tactic.NormNum
import Mathlib.Tactic.SplitIfs
import Mathlib.Tactic.Push
import Mathlib.Tactic.FieldSimp
import Mathlib.Tactic.Positivity

/-! # Lemmas about the samplers -/

namespace Verif.Core.Sampler

/-! ## Loops -/

lemma loop_inv {σ : Type} (f : σ → Nat → Option σ) (I : Nat → σ → Prop) (n : Nat)
    (hstep : ∀ i, i < n → ∀ s, I i s → ∃ s', f s i = some s' ∧ I (i + 1) s') (s : σ) (h0 : I 0 s) :
    ∃ s', loop n f s = some s' ∧ I n s' := by
  unfold loop
  induction n with
  | zero => exact ⟨s, rfl, h0⟩
  | succ n ih =>
    obtain ⟨s1, h1, hI⟩ := ih (fun i hi => hstep i (Nat.lt_succ_of_lt hi))
    obtain ⟨s2, h2, hI2⟩ := hstep n (Nat.lt_succ_self n) s1 hI
    refine ⟨s2, ?_, hI2⟩
    rw [List.range_succ, List.foldlM_append, h1]
    simp [h2]

lemma put_lt {α : Type} {n i : Nat} (a : Arr α) (v : α) (h : i < n) :
    put n a i v = some (fun j => if j = i then v else a j) := by unfold put; rw [if_pos h]

lemma get_lt {α : Type} {n i : Nat} (a : Arr α) (h : i < n) : get n a i = some (a i) := by
  unfold get; rw [if_pos h]

lemma index_inj {X a b a' b' : Nat} (hb : b < X) (hb' : b' < X) (h : a * X + b = a' * X + b') : a = a' ∧ b = b' := by
  have h1 : (a * X + b) / X = a := by
    rw [Nat.mul_comm, Nat.mul_add_div (by omega), Nat.div_eq_of_lt hb]; rfl
  have h2 : (a' * X + b') / X = a' := by
    rw [Nat.mul_comm, Nat.mul_add_div (by omega), Nat.div_eq_of_lt hb']; rfl
  have : a = a' := by rw [← h1, ← h2, h]
  subst this
  exact ⟨rfl, by omega⟩

lemma index_lt {X Y a b : Nat} (hb : b < X) (ha : a < Y) : a * X + b < X * Y := by
  have : (a + 1) * X ≤ Y * X := Nat.mul_le_mul_right X ha
  rw [Nat.mul_comm X Y]
  rw [Nat.add_mul] at this
  omega

/-! ## Shuffling -/

/-- `π` is a permutation of the numbers below `m`, with the inverse `σ`. -/
structure PermOn (m : Nat) (π σ : Nat → Nat) : Prop where
  lt : ∀ i, i < m → π i < m
  lt' : ∀ i, i < m → σ i < m
  left : ∀ i, i < m → σ (π i) = i
  right : ∀ i, i < m → π (σ i) = i

lemma PermOn.id (m : Nat) : PermOn m (fun i => i) (fun i => i) :=
  ⟨fun _ h => h, fun _ h => h, fun _ _ => rfl, fun _ _ => rfl⟩

lemma PermOn.existsUnique {m : Nat} {π σ : Nat → Nat} (h : PermOn m π σ) (v : Nat) (hv : v < m) :
    ∃! i, i < m ∧ π i = v :=
  ⟨σ v, ⟨h.lt' v hv, h.right v hv⟩, fun i hi => by rw [← hi.2, h.left i hi.1]⟩

lemma randomInt_lt {ρ : Nat → ℚ} (hρ : ∀ k, 0 ≤ ρ k ∧ ρ k < 1) (k range : Nat) (h : 0 < range) :
    randomInt ρ k range < range := by
  unfold randomInt
  have hr : (0 : ℚ) < range := by exact_mod_cast h
  have h1 : ⌊(range : ℚ) * ρ k⌋ < (range : ℤ) := by
    rw [Int.floor_lt]
    calc (range : ℚ) * ρ k < range * 1 := mul_lt_mul_of_pos_left (hρ k).2 hr
      _ = ((range : ℤ) : ℚ) := by push_cast; ring
  have h0 : 0 ≤ ⌊(range : ℚ) * ρ k⌋ := Int.floor_nonneg.mpr (mul_nonneg hr.le (hρ k).1)
  omega

/-- Exchanging two numbers. -/
def tr (i j k : Nat) : Nat := if k = i then j else if k = j then i else k

lemma tr_tr (i j k : Nat) : tr i j (tr i j k) = k := by
  unfold tr; split_ifs <;> omega

lemma tr_lt {i j k m : Nat} (hi : i < m) (hj : j < m) (hk : k < m) : tr i j k < m := by
  unfold tr; split_ifs <;> omega

lemma shuffle_spec {ρ : Nat → ℚ} (hρ : ∀ k, 0 ≤ ρ k ∧ ρ k < 1) (n : Nat) (addr : Nat → Nat) (M : Nat)
    (hlt : ∀ i, i < M → addr i < n) (hinj : ∀ i j, i < M → j < M → addr i = addr j → i = j) :
    ∀ m, m ≤ M → ∀ a k, ∃ a' k' π σ, shuffle ρ n addr m (a, k) = some (a', k') ∧ PermOn m π σ ∧
      (∀ i, i < m → a' (addr i) = a (addr (π i))) ∧ (∀ j, (∀ i, i < m → j ≠ addr i) → a' j = a j) := by
  intro m
  induction m with
  | zero => intro _ a k; exact ⟨a, k, _, _, rfl, PermOn.id 0, fun i hi => absurd hi (by omega), fun _ _ => rfl⟩
  | succ m ih =>
    intro hm a k
    cases m with
    | zero => exact ⟨a, k, _, _, rfl, PermOn.id 1, fun i hi => rfl, fun _ _ => rfl⟩
    | succ m =>
      have hr := randomInt_lt hρ k (m + 2) (by omega)
      generalize hrr : randomInt ρ k (m + 2) = r at hr
      have ha1 := hlt (m + 1) (by omega)
      have ha2 := hlt r (by omega)
      obtain ⟨a', k', π, σ, e, hp, hin, hout⟩ := ih (by omega)
        (fun j => if j = addr (m + 1) then a (addr r) else if j = addr r then a (addr (m + 1)) else a j) (k + 1)
      -- the swapped array in terms of the numbers
      have hsw : ∀ i, i < m + 2 →
          (fun j => if j = addr (m + 1) then a (addr r) else if j = addr r then a (addr (m + 1)) else a j) (addr i) =
            a (addr (tr (m + 1) r i)) := by
        intro i hi
        show (if addr i = addr (m + 1) then _ else if addr i = addr r then _ else _) = _
        unfold tr
        by_cases h1 : i = m + 1
        · rw [if_pos h1, h1, if_pos rfl]
        · rw [if_neg h1, if_neg (fun h => h1 (hinj _ _ (by omega) (by omega) h))]
          by_cases h2 : i = r
          · rw [if_pos h2, h2, if_pos rfl]
          · rw [if_neg h2, if_neg (fun h => h2 (hinj _ _ (by omega) (by omega) h))]
      refine ⟨a', k', fun i => tr (m + 1) r (if i < m + 1 then π i else i),
        fun i => if tr (m + 1) r i < m + 1 then σ (tr (m + 1) r i) else tr (m + 1) r i, ?_, ?_, ?_, ?_⟩
      · rw [shuffle, hrr, swap, if_pos ⟨ha1, ha2⟩]
        exact e
      · constructor
        · intro i hi
          apply tr_lt (by omega) (by omega)
          split_ifs with h
          · have := hp.lt i h; omega
          · omega
        · intro i hi
          have := @tr_lt (m + 1) r i (m + 2) (by omega) (by omega) hi
          split_ifs with h
          · have := hp.lt' _ h; omega
          · omega
        · intro i hi
          rw [tr_tr]
          by_cases h : i < m + 1
          · rw [if_pos h, if_pos (hp.lt i h), hp.left i h]
          · rw [if_neg h, if_neg h]
        · intro i hi
          by_cases h : tr (m + 1) r i < m + 1
          · rw [if_pos h, if_pos (hp.lt' _ h), hp.right _ h, tr_tr]
          · rw [if_neg h, if_neg h, tr_tr]
      · intro i hi
        dsimp only
        by_cases h : i < m + 1
        · rw [if_pos h, hin i h]
          have := hp.lt i h
          exact hsw (π i) (by omega)
        · have hi' : i = m + 1 := by omega
          rw [if_neg h, hout (addr i)]
          · exact hsw i (by omega)
          · intro j hj hEq
            have := hinj i j (by omega) (by omega) hEq
            omega
      · intro j hj
        rw [hout j (fun i hi => hj i (by omega))]
        show (if j = addr (m + 1) then _ else if j = addr r then _ else _) = _
        rw [if_neg (hj (m + 1) (by omega)), if_neg (hj r (by omega))]

/-! ## The subcells -/

lemma multiJitter_spec {ρ : Nat → ℚ} (hρ : ∀ k, 0 ≤ ρ k ∧ ρ k < 1) (X Y k : Nat) :
    ∃ a k', multiJitterIndices ρ X Y k = some (a, k') ∧
      (∀ iy, iy < Y → ∃ π σ, PermOn X π σ ∧ ∀ ix, ix < X → a (2 * (iy * X + ix) + 1) = π ix) ∧
      (∀ ix, ix < X → ∃ π σ, PermOn Y π σ ∧ ∀ iy, iy < Y → a (2 * (iy * X + ix)) = π iy) := by
  unfold multiJitterIndices
  dsimp only
  -- the starting pattern
  obtain ⟨a0, e0, h0⟩ := loop_inv
    (fun a iy => loop X (fun a ix => (put (X * Y * 2) a (2 * (iy * X + ix)) iy).bind
      fun a => put (X * Y * 2) a (2 * (iy * X + ix) + 1) ix) a)
    (fun i a => ∀ iy ix, iy < i → ix < X → a (2 * (iy * X + ix)) = iy ∧ a (2 * (iy * X + ix) + 1) = ix) Y
    (by
      intro iy hiy a ha
      obtain ⟨a', e', h'⟩ := loop_inv
        (fun a ix => (put (X * Y * 2) a (2 * (iy * X + ix)) iy).bind
          fun a => put (X * Y * 2) a (2 * (iy * X + ix) + 1) ix)
        (fun i a => ∀ jy jx, jx < X → (jy < iy ∨ (jy = iy ∧ jx < i)) →
          a (2 * (jy * X + jx)) = jy ∧ a (2 * (jy * X + jx) + 1) = jx) X
        (by
          intro ix hix b hb
          have hl := index_lt hix hiy
          rw [put_lt _ _ (by omega), Option.bind_some, put_lt _ _ (by omega)]
          refine ⟨_, rfl, ?_⟩
          intro jy jx hjx hj
          by_cases hEq : jy * X + jx = iy * X + ix
          · obtain ⟨q1, q2⟩ := index_inj hjx hix hEq
            rw [q1, q2]
            constructor
            · show (if _ then _ else if _ then _ else _) = _
              rw [if_neg (by omega), if_pos rfl]
            · show (if _ then _ else _) = _
              rw [if_pos rfl]
          · have hne : ¬ (jy = iy ∧ jx = ix) := by rintro ⟨q1, q2⟩; exact hEq (by rw [q1, q2])
            have hb' := hb jy jx hjx (by omega)
            constructor
            · show (if _ then _ else if _ then _ else _) = _
              rw [if_neg (by omega), if_neg (by omega)]; exact hb'.1
            · show (if _ then _ else if _ then _ else _) = _
              rw [if_neg (by omega), if_neg (by omega)]; exact hb'.2)
        a (by
          intro jy jx hjx hj
          exact ha jy jx (by omega) hjx)
      exact ⟨a', e', fun jy jx hjy hjx => h' jy jx hjx (by omega)⟩)
    (fun _ => 0) (by intro iy ix h; omega)
  rw [e0, Option.bind_some]
  -- the rows
  obtain ⟨s1, e1, h1⟩ := loop_inv
    (fun (s : Arr Nat × Nat) iy => shuffle ρ (X * Y * 2) (fun ix => 2 * (iy * X + ix) + 1) X s)
    (fun i s => (∀ iy ix, iy < Y → ix < X → s.1 (2 * (iy * X + ix)) = iy) ∧
      (∀ iy, iy < i → ∃ π σ, PermOn X π σ ∧ ∀ ix, ix < X → s.1 (2 * (iy * X + ix) + 1) = π ix) ∧
      (∀ iy ix, i ≤ iy → iy < Y → ix < X → s.1 (2 * (iy * X + ix) + 1) = ix)) Y
    (by
      rintro iy hiy ⟨a, k⟩ ⟨q1, q2, q3⟩
      dsimp only at q1 q2 q3 ⊢
      obtain ⟨a', k', π, σ, e, hp, hin, hout⟩ := shuffle_spec hρ (X * Y * 2) (fun ix => 2 * (iy * X + ix) + 1) X
        (fun i hi => by have := index_lt hi hiy; omega)
        (fun i j hi hj h => (index_inj hi hj (show iy * X + i = iy * X + j by omega)).2) X (le_refl _) a k
      refine ⟨(a', k'), e, ?_, ?_, ?_⟩
      · intro jy jx hjy hjx
        refine (hout _ (fun i hi => ?_)).trans (q1 jy jx hjy hjx)
        show 2 * _ ≠ 2 * _ + 1
        omega
      · intro jy hjy
        by_cases hEq : jy = iy
        · subst hEq
          refine ⟨π, σ, hp, fun ix hix => ?_⟩
          refine (hin ix hix).trans ?_
          exact q3 jy (π ix) (le_refl _) hiy (hp.lt ix hix)
        · obtain ⟨π', σ', hp', hv⟩ := q2 jy (by omega)
          refine ⟨π', σ', hp', fun ix hix => ?_⟩
          refine (hout _ (fun i hi h => ?_)).trans (hv ix hix)
          exact hEq (index_inj hix hi (show jy * X + ix = iy * X + i by omega)).1
      · intro jy jx h1 h2 hjx
        refine (hout _ (fun i hi h => ?_)).trans (q3 jy jx (by omega) h2 hjx)
        have := (index_inj hjx hi (show jy * X + jx = iy * X + i by omega)).1
        omega)
    (a0, k) ⟨fun iy ix h h' => (h0 iy ix h h').1, fun iy h => by omega, fun iy ix _ h h' => (h0 iy ix h h').2⟩
  rw [e1, Option.bind_some]
  -- the columns
  obtain ⟨s2, e2, h2⟩ := loop_inv
    (fun (s : Arr Nat × Nat) ix => shuffle ρ (X * Y * 2) (fun iy => 2 * (iy * X + ix)) Y s)
    (fun i s => (∀ iy, iy < Y → ∃ π σ, PermOn X π σ ∧ ∀ ix, ix < X → s.1 (2 * (iy * X + ix) + 1) = π ix) ∧
      (∀ ix, ix < i → ∃ π σ, PermOn Y π σ ∧ ∀ iy, iy < Y → s.1 (2 * (iy * X + ix)) = π iy) ∧
      (∀ iy ix, i ≤ ix → iy < Y → ix < X → s.1 (2 * (iy * X + ix)) = iy)) X
    (by
      rintro ix hix ⟨a, k⟩ ⟨q1, q2, q3⟩
      dsimp only at q1 q2 q3 ⊢
      obtain ⟨a', k', π, σ, e, hp, hin, hout⟩ := shuffle_spec hρ (X * Y * 2) (fun iy => 2 * (iy * X + ix)) Y
        (fun i hi => by have := index_lt hix hi; omega)
        (fun i j hi hj h => (index_inj hix hix (show i * X + ix = j * X + ix by omega)).1) Y (le_refl _) a k
      refine ⟨(a', k'), e, ?_, ?_, ?_⟩
      · intro jy hjy
        obtain ⟨π', σ', hp', hv⟩ := q1 jy hjy
        refine ⟨π', σ', hp', fun jx hjx => ?_⟩
        refine (hout _ (fun i hi => ?_)).trans (hv jx hjx)
        show 2 * _ + 1 ≠ 2 * _
        omega
      · intro jx hjx
        by_cases hEq : jx = ix
        · subst hEq
          refine ⟨π, σ, hp, fun iy hiy => ?_⟩
          refine (hin iy hiy).trans ?_
          exact q3 (π iy) jx (le_refl _) (hp.lt iy hiy) hix
        · obtain ⟨π', σ', hp', hv⟩ := q2 jx (by omega)
          refine ⟨π', σ', hp', fun iy hiy => ?_⟩
          refine (hout _ (fun i hi h => ?_)).trans (hv iy hiy)
          exact hEq (index_inj (show jx < X by omega) hix (show iy * X + jx = i * X + ix by omega)).2
      · intro jy jx h1 h2 hjx
        refine (hout _ (fun i hi h => ?_)).trans (q3 jy jx (by omega) h2 hjx)
        have := (index_inj hjx hix (show jy * X + jx = i * X + ix by omega)).2
        omega)
    s1 ⟨fun iy h => h1.2.1 iy h, fun ix h => by omega, fun iy ix _ h h' => h1.1 iy ix h h'⟩
  exact ⟨s2.1, s2.2, e2, h2.1, h2.2.1⟩

end Verif.Core.Sampler
