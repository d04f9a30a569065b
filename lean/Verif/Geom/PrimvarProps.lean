import Verif.Geom.PrimvarLemmas

/-!
# C62: primitive variables

Every value of a primitive variable in a request is kept, and stays what it is when the variable is copied, split, diced, given to a
shader or transformed. The specification of a variable is a function from the number of the value and the array index.
-/

namespace Verif.Geom.Primvar

variable {T : Type}

/-- Specification: the variable has class `c`, `m` elements for each value, `n` values, and these are `f`. -/
structure Stored (p : Param T) (c : Cls) (m n : ℕ) (f : ℕ → ℕ → T) : Prop where
  cls : p.cls = c
  count : p.count = m
  size : p.getSize = n
  vals : p.vals.length = n * m
  arr : p.kind = .varyingArray → p.size = n
  read : ∀ i k, i < n → k < m → p.read i k = .ok (f i k)

/-- Classes with values for each vertex, corner or parametric corner. -/
def perPoint : Cls → Bool
  | .constant | .uniform => false
  | _ => true

theorem perPoint_kind {c : Cls} (h : perPoint c = true) (count : ℕ) : linKind (kindOf c count) = true := by
  unfold kindOf
  by_cases hc : count ≤ 1
  · rw [if_pos hc]; cases c <;> first | rfl | exact absurd h (by decide)
  · rw [if_neg hc]; cases c <;> first | rfl | exact absurd h (by decide)

theorem Stored.lin {p : Param T} {c : Cls} {count n : ℕ} {f : ℕ → ℕ → T} (h : Stored p c count n f) (hc : 1 ≤ count)
    (hk : linKind (kindOf c count) = true ∨ n = 1) : Lin p n :=
  ⟨by rw [h.count]; exact hc, by rw [h.vals, h.count], by unfold Param.kind; rw [h.cls, h.count]; exact hk, h.arr⟩

theorem Lin.stored {p : Param T} {c : Cls} {count n : ℕ} {f : ℕ → ℕ → T} (h : Lin p n) (hc : p.cls = c) (hn : p.count = count)
    (hr : ∀ i k, i < n → k < count → p.read i k = .ok (f i k)) : Stored p c count n f :=
  ⟨hc, hn, h.getSize, by rw [h.len, hn], h.size, hr⟩

/-- **C62** Loading keeps every value: for single values of every class, for arrays of every class other than uniform, and for uniform
arrays of surfaces with one uniform value. Missing: uniform arrays of more values, see `C62_load_uniform_array_violated`. -/
theorem C62_load_partial (d : T) (c : Cls) (count n : ℕ) (data : ℕ → T) (hc : 1 ≤ count) (hconst : c = .constant → n = 1)
    (hunif : c = .uniform → count = 1 ∨ n = 1) :
    ∃ p, load d c count n data = .ok p ∧ Stored p c count n fun i k => data (i * count + k) := by
  have hk : linKind (kindOf c count) = true ∨ n = 1 := by
    by_cases h1 : c = .constant
    · exact Or.inr (hconst h1)
    · by_cases h2 : c = .uniform
      · rcases hunif h2 with h | h
        · left; rw [h2, h]; rfl
        · exact Or.inr h
      · exact Or.inl (perPoint_kind (by cases c <;> simp_all [perPoint]) count)
  obtain ⟨p, e, l, h1, h2, h3⟩ := load_lin d c count n data hc hk
  exact ⟨p, e, l.stored h2 h1 h3⟩

example : ∃ p, load (0 : ℤ) .vertex 3 2 (fun q => (q : ℤ)) = .ok p ∧ p.read 1 2 = .ok 5 ∧ p.read 0 1 = .ok 1 :=
  ⟨⟨.vertex, 3, 2, [0, 1, 2, 3, 4, 5]⟩, by decide +kernel, by decide +kernel, by decide +kernel⟩

/-- **C62 (negation)** Of a uniform array only the last value is kept: it is found for every face. -/
theorem C62_load_uniform_array_violated :
    ¬ ∀ (n count : ℕ) (data : ℕ → ℤ), 1 ≤ count → ∃ p, load 0 .uniform count n data = .ok p ∧
      ∀ i k, i < n → k < count → p.read i k = .ok (data (i * count + k)) := by
  intro h
  obtain ⟨p, e, hp⟩ := h 2 2 (fun q => (q : ℤ)) (by decide)
  have : load (0 : ℤ) .uniform 2 2 (fun q => (q : ℤ)) = .ok ⟨.uniform, 2, 1, [2, 3]⟩ := by decide +kernel
  rw [this] at e
  injection e with e
  subst e
  exact absurd (hp 0 0 (by decide) (by decide)) (by decide +kernel)

/-- **C62** Copying one value copies all of its elements, and leaves the other values as they are: for single values and for arrays
other than uniform and constant. Missing: those, see `C62_set_value_violated`. -/
theorem C62_set_value_partial {p src : Param T} {c c' : Cls} {count n m it is : ℕ} {f g : ℕ → ℕ → T} (hp : Stored p c count n f)
    (hs : Stored src c' count m g) (hc : 1 ≤ count) (hk : kindOf c count ≠ .fixedArray) (hn : linKind (kindOf c count) = true ∨ n = 1)
    (hm : linKind (kindOf c' count) = true ∨ m = 1) (ht : it < n) (hi : is < m) :
    ∃ q, p.setValue src it is = .ok q ∧ Stored q c count n fun i k => if i = it then g is k else f i k := by
  have lp := hp.lin hc hn
  have ls := hs.lin hc hm
  have hcc : src.count = p.count := by rw [hs.count, hp.count]
  obtain ⟨q, e, lq, sq, h1, h2⟩ := setValue_ok lp (by unfold Param.kind; rw [hp.cls, hp.count]; exact hk) ls hcc ht hi
  refine ⟨q, e, lq.stored (sq.cls.trans hp.cls) (sq.count.trans hp.count) ?_⟩
  intro i k hi' hk'
  have hkq : k < q.count := by rw [sq.count, hp.count]; exact hk'
  rw [lq.read hi' hkq, sq.count]
  have hkp : k < p.count := by rw [hp.count]; exact hk'
  by_cases hit : i = it
  · rw [if_pos hit, hit, h1 k hkp]
    exact (ls.read hi (by rw [hs.count]; exact hk') _).1 (hs.read is k hi hk')
  · rw [if_neg hit, h2 _ fun j hj hh => hit (idx_inj hkp hj hh).1]
    exact (lp.read hi' hkp _).1 (hp.read i k hi' hk')

example : (⟨.varying, 2, 2, [1, 2, 3, 4]⟩ : Param ℤ).setValue ⟨.vertex, 2, 1, [7, 8]⟩ 1 0 = .ok ⟨.varying, 2, 2, [1, 2, 7, 8]⟩ := by
  decide +kernel

/-- **C62 (negation)** Of an element of a uniform or constant array only the first entry is copied. -/
theorem C62_set_value_violated : ∀ c, c = .uniform ∨ c = .constant →
    (⟨c, 2, 1, [1, 2]⟩ : Param ℤ).setValue ⟨c, 2, 1, [7, 8]⟩ 0 0 = .ok ⟨c, 2, 1, [7, 2]⟩ := by
  rintro c (h | h) <;> subst h <;> decide +kernel

/-! ## Splitting -/

variable {K : Type} [Field K] [LinearOrder K] [IsStrictOrderedRing K]

/-- **C62** On a quadrilateral with four values, all classes with values for points are split into the two halves of the bilinear
interpolation, every array element for itself. Exact arithmetic; the surface's own splitting of vertex variables is
`CqSurface::NaturalSubdivide`. Missing: vertex arrays of other surfaces, see `C62_split_vertex_array_violated`. -/
theorem C62_split_partial (d : K) (u : Bool) {p : Param K} {c : Cls} {count : ℕ} {f : ℕ → ℕ → K} (hp : Stored p c count 4 f)
    (hc : 1 ≤ count) (hk : perPoint c = true) :
    ∃ r1 r2 f1 f2, p.subdivide d (fun x y => (x + y) * (1 / 2)) (naturalQuad fun x y => (x + y) * (1 / 2)) u = .ok (r1, r2) ∧
      Stored r1 c count 4 f1 ∧ Stored r2 c count 4 f2 ∧
      ∀ k s t, k < count →
        bil (f1 0 k) (f1 1 k) (f1 2 k) (f1 3 k) s t =
          bil (f 0 k) (f 1 k) (f 2 k) (f 3 k) (if u then s / 2 else s) (if u then t else t / 2) ∧
        bil (f2 0 k) (f2 1 k) (f2 2 k) (f2 3 k) s t =
          bil (f 0 k) (f 1 k) (f 2 k) (f 3 k) (if u then (1 + s) / 2 else s) (if u then t else (1 + t) / 2) := by
  have hlin := perPoint_kind hk count
  have lp := hp.lin hc (Or.inl hlin)
  have ek : p.kind = kindOf c count := by unfold Param.kind; rw [hp.cls, hp.count]
  obtain ⟨q1, q2, e, l1, l2, s1, s2, hq, -⟩ := splitElems_ok (fun x y : K => (x + y) * (1 / 2)) u lp p.count (le_refl _)
  have hsub : p.subdivide d (fun x y => (x + y) * (1 / 2)) (naturalQuad fun x y => (x + y) * (1 / 2)) u = .ok (q1, q2) := by
    unfold Param.subdivide
    rw [setSize_self d lp]
    cases k : p.kind with
    | varying =>
      have c1 := kind_count (Or.inl k) lp.pos
      dsimp only
      by_cases hv : p.cls = .vertex ∨ p.cls = .faceVertex
      · rw [if_pos hv]; exact e
      · rw [if_neg hv, if_pos (by rw [lp.len, c1])]
        rw [c1] at e
        exact e
    | varyingArray =>
      dsimp only
      rw [if_pos (lp.size k)]
      exact e
    | uniform =>
      exfalso
      rw [ek] at k
      unfold kindOf at k
      by_cases h1 : count ≤ 1
      · rw [if_pos h1] at k; cases c <;> simp [perPoint] at k hk
      · rw [if_neg h1] at k; cases c <;> simp [perPoint] at k hk
    | constant => rw [← ek, k] at hlin; exact absurd hlin (by decide)
    | fixedArray => rw [← ek, k] at hlin; exact absurd hlin (by decide)
  have hcor : ∀ k, k < count → Corners p k (f 0 k) (f 1 k) (f 2 k) (f 3 k) := fun k hk =>
    ⟨hp.read 0 k (by omega) hk, hp.read 1 k (by omega) hk, hp.read 2 k (by omega) hk, hp.read 3 k (by omega) hk⟩
  have four : ∀ {q : Param K} {g : ℕ → ℕ → K}, (∀ k, k < count → Corners q k (g 0 k) (g 1 k) (g 2 k) (g 3 k)) →
      ∀ i k, i < 4 → k < count → q.read i k = .ok (g i k) := by
    intro q g h i k hi hk
    have := h k hk
    rcases (by omega : i = 0 ∨ i = 1 ∨ i = 2 ∨ i = 3) with rfl | rfl | rfl | rfl
    · exact this.r0
    · exact this.r1
    · exact this.r2
    · exact this.r3
  cases u with
  | true =>
    refine ⟨q1, q2, fun i k => match i with
        | 0 => f 0 k | 1 => (f 0 k + f 1 k) * (1 / 2) | 2 => f 2 k | _ => (f 2 k + f 3 k) * (1 / 2),
      fun i k => match i with
        | 0 => (f 0 k + f 1 k) * (1 / 2) | 1 => f 1 k | 2 => (f 2 k + f 3 k) * (1 / 2) | _ => f 3 k, hsub, ?_, ?_, ?_⟩
    · exact l1.stored (s1.cls.trans hp.cls) (s1.count.trans hp.count)
        (four fun k hk => (hq k _ _ _ _ (by rw [hp.count]; exact hk) (hcor k hk)).1)
    · exact l2.stored (s2.cls.trans hp.cls) (s2.count.trans hp.count)
        (four fun k hk => (hq k _ _ _ _ (by rw [hp.count]; exact hk) (hcor k hk)).2)
    · intro k s t _
      simp only [if_true, bil]
      constructor <;> ring
  | false =>
    refine ⟨q1, q2, fun i k => match i with
        | 0 => f 0 k | 1 => f 1 k | 2 => (f 0 k + f 2 k) * (1 / 2) | _ => (f 1 k + f 3 k) * (1 / 2),
      fun i k => match i with
        | 0 => (f 0 k + f 2 k) * (1 / 2) | 1 => (f 1 k + f 3 k) * (1 / 2) | 2 => f 2 k | _ => f 3 k, hsub, ?_, ?_, ?_⟩
    · exact l1.stored (s1.cls.trans hp.cls) (s1.count.trans hp.count)
        (four fun k hk => (hq k _ _ _ _ (by rw [hp.count]; exact hk) (hcor k hk)).1)
    · exact l2.stored (s2.cls.trans hp.cls) (s2.count.trans hp.count)
        (four fun k hk => (hq k _ _ _ _ (by rw [hp.count]; exact hk) (hcor k hk)).2)
    · intro k s t _
      simp only [Bool.false_eq_true, if_false, bil]
      constructor <;> ring

example : Stored (⟨.varying, 1, 1, [0, 2, 4, 8]⟩ : Param ℚ) .varying 1 4 (fun i _ => [0, 2, 4, 8].getD i 0) :=
  ⟨rfl, rfl, rfl, rfl, by decide +kernel, by
    intro i k hi hk
    have : k = 0 := by omega
    subst this
    rcases (by omega : i = 0 ∨ i = 1 ∨ i = 2 ∨ i = 3) with rfl | rfl | rfl | rfl <;> decide +kernel⟩

/-- **C62** Uniform and constant variables are the same on both halves. -/
theorem C62_split_uniform (d : T) (mid : T → T → T) (natural : Bool → Param T → Res (Param T × Param T)) (u : Bool) (p : Param T)
    (h : p.cls = .uniform ∨ p.cls = .constant) : p.subdivide d mid natural u = .ok (p, p) := by
  unfold Param.subdivide Param.kind kindOf
  by_cases hc : p.count ≤ 1
  · rw [if_pos hc]; rcases h with h | h <;> rw [h]
  · rw [if_neg hc]; rcases h with h | h <;> rw [h]

example : (⟨.uniform, 1, 1, [3]⟩ : Param ℤ).subdivide 0 (fun a b => (a + b) / 2) (fun _ p => .ok (p, p)) true =
    .ok (⟨.uniform, 1, 1, [3]⟩, ⟨.uniform, 1, 1, [3]⟩) := by decide +kernel

/-- **C62 (negation)** Splitting a vertex array of a bicubic patch keeps its first four vertices in both halves, whatever the surface's
own splitting `natural` does; the value of vertex 15 is then a failed assertion. -/
theorem C62_split_vertex_array_violated (natural : Bool → Param ℤ → Res (Param ℤ × Param ℤ)) (u : Bool) :
    ∃ p r : Param ℤ, load 0 .vertex 2 16 (fun q => (q : ℤ)) = .ok p ∧
      p.subdivide 0 (fun a b => (a + b) / 2) natural u = .ok (r, r) ∧ r = ⟨.vertex, 2, 4, [0, 1, 2, 3, 4, 5, 6, 7]⟩ ∧
      r.read 15 0 = .assertFail :=
  ⟨⟨.vertex, 2, 16, (List.range 32).map fun q => (q : ℤ)⟩, ⟨.vertex, 2, 4, [0, 1, 2, 3, 4, 5, 6, 7]⟩, by decide +kernel, rfl, rfl,
    by decide +kernel⟩

/-! ## Dicing -/

/-- **C62** A single varying or facevarying variable with four values is diced by bilinear interpolation, with the value of grid
point (`iu`, `iv`) at position `iv (u + 1) + iu`; uniform and constant variables have their value everywhere. Missing: arrays, see
`C62_dice_array_violated`. -/
theorem C62_dice_partial {p : Param K} {c : Cls} {n u v : ℕ} {f : ℕ → ℕ → K} (hp : Stored p c 1 n f) (hu : 1 ≤ u) (hv : 1 ≤ v)
    (hn : if perPoint c then 4 ≤ n else n = 1) :
    ∃ l, p.dice u v ((u + 1) * (v + 1)) = .ok [l] ∧ l.length = (u + 1) * (v + 1) ∧
      ∀ iu iv, iu ≤ u → iv ≤ v → l[iv * (u + 1) + iu]? = some
        (if perPoint c then bil (f 0 0) (f 1 0) (f 2 0) (f 3 0) ((iu : K) / u) ((iv : K) / v) else f 0 0) := by
  have ek : p.kind = kindOf c 1 := by unfold Param.kind; rw [hp.cls, hp.count]
  by_cases hc : perPoint c = true
  · rw [if_pos hc] at hn
    have hk : p.kind = .varying := by
      rw [ek]; unfold kindOf; rw [if_pos (le_refl _)]; cases c <;> first | rfl | exact absurd hc (by decide)
    have hd : p.dice u v ((u + 1) * (v + 1)) = .ok [gridValues u v fun iu iv =>
        bilinear (f 0 0) (f 1 0) (f 2 0) (f 3 0) ((iu : K) * (1 / (u : K))) ((iv : K) * (1 / (v : K)))] := by
      unfold Param.dice
      rw [hk]
      dsimp only
      rw [if_pos (by rw [hp.vals]; omega)]
      unfold diceElem
      rw [hp.read 0 0 (by omega) (by omega), hp.read 1 0 (by omega) (by omega), hp.read 2 0 (by omega) (by omega),
        hp.read 3 0 (by omega) (by omega)]
      rfl
    refine ⟨_, hd, by rw [gridValues_length, Nat.mul_comm], ?_⟩
    intro iu iv hiu hiv
    rw [gridValues_get u v _ iu iv hiu hiv, if_pos hc]
    have r : ∀ i m : ℕ, i ≤ m → 1 ≤ m → 0 ≤ (i : K) * (1 / (m : K)) ∧ (i : K) * (1 / (m : K)) ≤ 1 := by
      intro i m him hm
      have hm0 : (0 : K) < m := by exact_mod_cast hm
      rw [mul_one_div]
      exact ⟨div_nonneg (by exact_mod_cast Nat.zero_le i) hm0.le, (div_le_one hm0).2 (by exact_mod_cast him)⟩
    rw [bilinear_eq _ _ _ _ _ _ (r iu u hiu hu) (r iv v hiv hv), mul_one_div, mul_one_div]
  · rw [if_neg hc] at hn
    have hk : p.kind = .uniform ∨ p.kind = .constant := by
      rw [ek]; unfold kindOf; rw [if_pos (le_refl _)]; cases c <;> simp [perPoint] at hc ⊢
    have hle : max (u * v) ((u + 1) * (v + 1)) ≤ (u + 1) * (v + 1) :=
      max_le (Nat.mul_le_mul (by omega) (by omega)) (le_refl _)
    have hd : p.dice u v ((u + 1) * (v + 1)) = .ok [List.replicate ((u + 1) * (v + 1)) (f 0 0)] := by
      unfold Param.dice
      have := hp.read 0 0 (by omega) (by omega)
      rcases hk with k | k <;> rw [k] <;> dsimp only <;> rw [if_pos hle, this] <;> rfl
    refine ⟨_, hd, List.length_replicate, ?_⟩
    intro iu iv hiu hiv
    rw [if_neg hc, List.getElem?_replicate, if_pos]
    have : (iv + 1) * (u + 1) ≤ (v + 1) * (u + 1) := Nat.mul_le_mul_right _ (by omega)
    rw [Nat.mul_comm (u + 1) (v + 1)]
    rw [Nat.add_mul, Nat.one_mul] at this
    omega

example : (⟨.varying, 1, 1, [0, 2, 4, 8]⟩ : Param ℚ).dice 2 1 6 = .ok [[0, 1, 2, 4, 6, 8]] := by decide +kernel

/-- **C62** Each element of a uniform or constant array has its value everywhere on the grid. -/
theorem C62_dice_fixed {p : Param K} {c : Cls} {count u v : ℕ} {f : ℕ → ℕ → K} (hp : Stored p c count 1 f) (hc : 2 ≤ count)
    (hcls : perPoint c = false) :
    ∃ ls, p.dice u v ((u + 1) * (v + 1)) = .ok ls ∧ ls.length = count ∧
      ∀ k, k < count → ls[k]? = some (List.replicate ((u + 1) * (v + 1)) (f 0 k)) := by
  have hk : p.kind = .fixedArray := by
    unfold Param.kind kindOf
    rw [hp.cls, hp.count, if_neg (by omega)]
    cases c <;> first | rfl | exact absurd hcls (by decide)
  have hle : max (u * v) ((u + 1) * (v + 1)) ≤ (u + 1) * (v + 1) :=
    max_le (Nat.mul_le_mul (by omega) (by omega)) (le_refl _)
  have hlen : p.vals.length = count := by rw [hp.vals, Nat.one_mul]
  have hd : p.dice u v ((u + 1) * (v + 1)) =
      .ok ((p.vals.take p.count).map fun x => List.replicate ((u + 1) * (v + 1)) x) := by
    unfold Param.dice
    rw [hk]
    dsimp only
    rw [if_pos hle, if_neg (by rw [hlen, hp.count]; omega)]
  refine ⟨_, hd, by rw [List.length_map, List.length_take, hp.count, hlen, Nat.min_self], ?_⟩
  intro k hkc
  have hr := hp.read 0 k (by omega) hkc
  have hv : p.vals[k]? = some (f 0 k) := by
    unfold Param.read Param.offset at hr
    rw [hk] at hr
    dsimp only at hr
    rw [if_pos (by omega)] at hr
    have e := List.getElem?_eq_getElem (l := p.vals) (i := k) (by omega)
    simp only [Res.bind, Nat.zero_add, e] at hr
    rw [e]
    injection hr with hr
    rw [hr]
  rw [List.getElem?_map, hp.count, List.getElem?_take, if_pos hkc, hv]
  rfl

example : (⟨.uniform, 2, 1, [3, 5]⟩ : Param ℚ).dice 1 1 4 = .ok [[3, 3, 3, 3], [5, 5, 5, 5]] := by decide +kernel

/-- **C62 (negation)** A varying array on a surface of four corners is a failed assertion on every grid that does not have exactly four
points. -/
theorem C62_dice_array_violated (u v : ℕ) (h : (u + 1) * (v + 1) ≠ 4) (data : ℕ → K) (d : K) :
    ∃ p, load d .varying 2 4 data = .ok p ∧ p.dice u v ((u + 1) * (v + 1)) = .assertFail := by
  obtain ⟨p, e, hp⟩ := C62_load_partial d .varying 2 4 data (by decide) (by intro h; cases h) (by intro h; cases h)
  refine ⟨p, e, ?_⟩
  have hk : p.kind = .varyingArray := by unfold Param.kind; rw [hp.cls, hp.count]; rfl
  unfold Param.dice
  rw [hk]
  dsimp only
  rw [hp.arr hk, if_neg h]

example : (2 + 1) * (1 + 1) ≠ 4 := by decide

/-- **C62 (negation)** Texture coordinates given as an array `st` of class vertex are not used: the variable keeps what it had.
Given as a single value they are a failed assertion. -/
theorem C62_st_violated (u v k : ℕ) (p : Param K) (old : List K) (hc : p.cls = .vertex) :
    p.diceOne u v k old = if p.count ≤ 1 then .assertFail else .ok old := by
  unfold Param.diceOne Param.kind kindOf
  rw [hc]
  by_cases h : p.count ≤ 1
  · rw [if_pos h, if_pos h]
  · rw [if_neg h, if_neg h]
    exact if_pos (Or.inl rfl)

example : (⟨.vertex, 2, 4, [0, 0, 1, 0, 0, 1, 1, 1]⟩ : Param ℚ).diceOne 1 1 0 [5, 5, 5, 5] = .ok [5, 5, 5, 5] := by decide +kernel

/-- **C62** Texture coordinates given as a varying array `st` of four values are diced by bilinear interpolation. -/
theorem C62_st_partial {p : Param K} {count u v k : ℕ} {f : ℕ → ℕ → K} (hp : Stored p .varying count 4 f) (hc : 2 ≤ count)
    (hk : k < count) (hu : 1 ≤ u) (hv : 1 ≤ v) (old : List K) :
    ∃ l, p.diceOne u v k old = .ok l ∧ l.length = (u + 1) * (v + 1) ∧
      ∀ iu iv, iu ≤ u → iv ≤ v → l[iv * (u + 1) + iu]? = some
        (bil (f 0 k) (f 1 k) (f 2 k) (f 3 k) ((iu : K) / u) ((iv : K) / v)) := by
  have hkind : p.kind = .varyingArray := by unfold Param.kind kindOf; rw [hp.cls, hp.count, if_neg (by omega)]
  have hd : p.diceOne u v k old = .ok (gridValues u v fun iu iv =>
      bilinear (f 0 k) (f 1 k) (f 2 k) (f 3 k) ((iu : K) * (1 / (u : K))) ((iv : K) * (1 / (v : K)))) := by
    unfold Param.diceOne
    rw [hkind]
    dsimp only
    rw [if_neg (by rw [hp.cls]; decide), if_pos (by rw [hp.count]; exact hk), if_pos (hp.arr hkind)]
    unfold diceElem
    rw [hp.read 0 k (by omega) hk, hp.read 1 k (by omega) hk, hp.read 2 k (by omega) hk, hp.read 3 k (by omega) hk]
    rfl
  refine ⟨_, hd, by rw [gridValues_length, Nat.mul_comm], ?_⟩
  intro iu iv hiu hiv
  rw [gridValues_get u v _ iu iv hiu hiv]
  have r : ∀ i m : ℕ, i ≤ m → 1 ≤ m → 0 ≤ (i : K) * (1 / (m : K)) ∧ (i : K) * (1 / (m : K)) ≤ 1 := by
    intro i m him hm
    have hm0 : (0 : K) < m := by exact_mod_cast hm
    rw [mul_one_div]
    exact ⟨div_nonneg (by exact_mod_cast Nat.zero_le i) hm0.le, (div_le_one hm0).2 (by exact_mod_cast him)⟩
  rw [bilinear_eq _ _ _ _ _ _ (r iu u hiu hu) (r iv v hiv hv), mul_one_div, mul_one_div]

example : (⟨.varying, 2, 4, [0, 0, 1, 0, 0, 1, 1, 1]⟩ : Param ℚ).diceOne 1 1 1 [5, 5, 5, 5] = .ok [0, 0, 1, 1] := by decide +kernel

/-! ## Shader variables -/

theorem foldr_read (p : Param T) (f : ℕ → T) (l : List ℕ) (h : ∀ i ∈ l, p.read i 0 = .ok (f i)) :
    l.foldr (fun i acc => (p.read i 0).bind fun x => acc.bind fun l => .ok (x :: l)) (.ok []) = .ok (l.map f) := by
  induction l with
  | nil => rfl
  | cons i l ih =>
    rw [List.foldr_cons, h i List.mem_cons_self, bind_ok, ih fun j hj => h j (List.mem_cons_of_mem i hj)]
    rfl

theorem foldr_fail (p : Param T) (f : ℕ → T) (l : List ℕ) (j : ℕ) (h : ∀ i ∈ l, p.read i 0 = .ok (f i))
    (hj : p.read j 0 = .assertFail) :
    (l ++ [j]).foldr (fun i acc => (p.read i 0).bind fun x => acc.bind fun l => .ok (x :: l)) (.ok []) = .assertFail := by
  induction l with
  | nil => rw [List.nil_append, List.foldr_cons, hj]; rfl
  | cons i l ih =>
    rw [List.cons_append, List.foldr_cons, h i List.mem_cons_self, bind_ok, ih fun j hj => h j (List.mem_cons_of_mem i hj)]
    rfl

/-- **C62** A shader that asks for a single uniform, constant or vertex variable is given its values. Missing: varying and facevarying,
see `C62_copy_violated`; arrays. -/
theorem C62_copy_partial {p : Param T} {c : Cls} {n m : ℕ} {f : ℕ → ℕ → T} (hp : Stored p c 1 n f) :
    (c = .vertex ∨ c = .faceVertex → m ≤ n → p.copyToVar m = .ok ((List.range m).map fun i => f i 0)) ∧
    (c = .uniform ∨ c = .constant → 1 ≤ n → p.copyToVar m = .ok (List.replicate m (f 0 0))) := by
  have ek : p.kind = kindOf c 1 := by unfold Param.kind; rw [hp.cls, hp.count]
  refine ⟨fun hc hm => ?_, fun hc hn => ?_⟩
  · have hk : p.kind = .varying := by rw [ek]; rcases hc with h | h <;> rw [h] <;> rfl
    unfold Param.copyToVar
    rw [hk]
    dsimp only
    rw [if_pos (by rw [hp.cls]; exact hc)]
    exact foldr_read p (fun i => f i 0) _ fun i hi => hp.read i 0 (by have := List.mem_range.1 hi; omega) (by omega)
  · have hk : p.kind = .uniform ∨ p.kind = .constant := by
      rw [ek]; rcases hc with h | h <;> rw [h]
      · exact Or.inl rfl
      · exact Or.inr rfl
    have := hp.read 0 0 (by omega) (by omega)
    unfold Param.copyToVar
    rcases hk with k | k <;> rw [k] <;> dsimp only <;> rw [this] <;> rfl

example : (⟨.vertex, 1, 1, [4, 5]⟩ : Param ℤ).copyToVar 2 = .ok [4, 5] := by decide +kernel

/-- **C62 (negation)** A shader that asks for a single varying or facevarying variable never gets it: the loop takes one value too
many. -/
theorem C62_copy_violated {p : Param T} {c : Cls} {n m : ℕ} {f : ℕ → ℕ → T} (hp : Stored p c 1 n f)
    (hc : c = .varying ∨ c = .faceVarying) : p.copyToVar m = .assertFail := by
  have hk : p.kind = .varying := by
    unfold Param.kind; rw [hp.cls, hp.count]; rcases hc with h | h <;> rw [h] <;> rfl
  unfold Param.copyToVar
  rw [hk]
  dsimp only
  rw [if_neg (by rw [hp.cls]; rcases hc with h | h <;> rw [h] <;> decide)]
  have hl : p.vals.length = n := by rw [hp.vals, Nat.mul_one]
  by_cases h : m = p.vals.length
  · rw [if_pos h, List.range_succ]
    refine foldr_fail p (fun i => f i 0) _ m (fun i hi => hp.read i 0 (by have := List.mem_range.1 hi; omega) (by omega)) ?_
    unfold Param.read Param.offset
    rw [hk]
    dsimp only
    rw [if_neg (by omega)]
    rfl
  · rw [if_neg h]

example : (⟨.varying, 1, 1, [4, 5]⟩ : Param ℤ).copyToVar 2 = .assertFail := by decide +kernel

/-! ## Transforming -/

/-- **C62** Transforming a surface transforms every value of a single variable, of every class. Missing: arrays, see
`C62_transform_violated`. -/
theorem C62_transform_partial {p : Param T} {c : Cls} {n : ℕ} {f : ℕ → ℕ → T} (g : T → T) (hp : Stored p c 1 n f)
    (hn : linKind (kindOf c 1) = true ∨ n = 1) : Stored (p.transform g) c 1 n fun i k => g (f i k) := by
  have lp := hp.lin (le_refl _) hn
  have hl : p.vals.length = n := by rw [hp.vals, Nat.mul_one]
  have e : p.transform g = { p with vals := p.vals.map g } := by
    unfold Param.transform
    rw [hp.size, ← hl, List.take_length, List.drop_length, List.append_nil]
  have lq : Lin (p.transform g) n := by
    rw [e]
    exact ⟨lp.pos, by rw [List.length_map]; exact lp.len, lp.kind, lp.size⟩
  refine lq.stored (by rw [e]; exact hp.cls) (by rw [e]; exact hp.count) ?_
  intro i k hi hk
  have hkp : k < p.count := by rw [hp.count]; exact hk
  rw [lq.read hi (by rw [e]; exact hkp), e]
  show (p.vals.map g)[p.count * i + k]? = _
  rw [List.getElem?_map, (lp.read hi hkp _).1 (hp.read i k hi hk)]
  rfl

example : (⟨.vertex, 1, 1, [4, 5]⟩ : Param ℤ).transform (fun x => 2 * x) = ⟨.vertex, 1, 1, [8, 10]⟩ := by decide +kernel

/-- **C62 (negation)** Of an array of points with two values of two elements, one value is transformed and the other is not; of a
uniform or constant array only the first element is. -/
theorem C62_transform_violated :
    (⟨.vertex, 2, 2, [1, 2, 3, 4]⟩ : Param ℤ).transform (fun x => 10 * x) = ⟨.vertex, 2, 2, [10, 20, 3, 4]⟩ ∧
    ∀ c, c = .uniform ∨ c = .constant →
      (⟨c, 2, 1, [1, 2]⟩ : Param ℤ).transform (fun x => 10 * x) = ⟨c, 2, 1, [10, 2]⟩ := by
  refine ⟨by decide +kernel, ?_⟩
  rintro c (h | h) <;> subst h <;> decide +kernel

end Verif.Geom.Primvar
