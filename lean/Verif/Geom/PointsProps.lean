import Mathlib.Tactic.Linarith
import Mathlib.Tactic.NormNum
import Mathlib.Tactic.Ring
import Mathlib.Tactic.FieldSimp
import Mathlib.Tactic.Positivity
import Mathlib.Tactic.SplitIfs
import Mathlib.Tactic.LinearCombination
import Mathlib.Data.List.Sort
import Verif.Geom.Points
/-!
# C70: points
-/
namespace Verif.Geom.Points

/-! ## Splitting -/

/-- The contract of `std::nth_element` for the coordinates `co dim` of the points: the elements are rearranged, and none
before the position is greater than one from there on. -/
def IsNth (co : Nat → Nat → ℚ) (nth : Nat → Nat → List Nat → List Nat) : Prop :=
  ∀ dim m l, m ≤ l.length → (nth dim m l).Perm l ∧
    ∀ a ∈ (nth dim m l).take m, ∀ b ∈ (nth dim m l).drop m, co dim a ≤ co dim b

/-- A piece that knows its number of points. -/
def Piece.Ok (p : Piece) : Prop := p.leaves.length = p.n

/-- C70: a split gives each point to exactly one of two halves, which know their sizes and are separated in the dimension
of the split; the halves will be split in the next dimension. -/
theorem C70_split (co : Nat → Nat → ℚ) (nth : Nat → Nat → List Nat → List Nat) (h : IsNth co nth) (p : Piece)
    (hp : p.leaves.length = p.n) :
    ((split nth p).1.leaves ++ (split nth p).2.leaves).Perm p.leaves ∧
    (split nth p).1.leaves.length = (split nth p).1.n ∧ (split nth p).2.leaves.length = (split nth p).2.n ∧
    (split nth p).1.n = p.n / 2 ∧ (split nth p).2.n = p.n - p.n / 2 ∧
    (∀ a ∈ (split nth p).1.leaves, ∀ b ∈ (split nth p).2.leaves, co p.dim a ≤ co p.dim b) ∧
    (split nth p).1.dim = (p.dim + 1) % 3 ∧ (split nth p).2.dim = (p.dim + 1) % 3 ∧
    (split nth p).1.maxWidth = p.maxWidth ∧ (split nth p).2.maxWidth = p.maxWidth := by
  obtain ⟨h1, h2⟩ := h p.dim (p.leaves.length / 2) p.leaves (Nat.div_le_self _ _)
  have hl := h1.length_eq
  simp only [split, partitionElements]
  refine ⟨?_, ?_, ?_, by trivial, by trivial, h2, by trivial⟩
  · rw [List.take_append_drop]
    exact h1
  · rw [List.length_take, hl, hp]
    exact Nat.min_eq_left (Nat.div_le_self _ _)
  · rw [List.length_drop, hl, hp]

/-- C70: at a later time of a deforming primitive each piece consists of the same points, in the same order, as that of the first time. -/
theorem C70_later (from1 from2 : Piece) :
    let c := copySplit from1 from2
    (c.1.n = from1.n ∧ c.1.leaves = from1.leaves ∧ c.1.dim = from1.dim) ∧ c.2.n = from2.n ∧ c.2.leaves = from2.leaves ∧ c.2.dim = from2.dim :=
  ⟨⟨rfl, rfl, rfl⟩, rfl, rfl, rfl⟩

example : (copySplit ⟨2, [4, 3], 1, 1⟩ ⟨3, [2, 1, 0], 1, 1⟩).2.leaves = [2, 1, 0] := by decide +kernel

/-- Sorting by a coordinate, an example of `nth_element`. -/
def nthSort (co : Nat → Nat → ℚ) (dim _m : Nat) (l : List Nat) : List Nat :=
  l.insertionSort fun a b => co dim a ≤ co dim b

example : split (nthSort fun d i => if d = 0 then 10 - i else i) (whole 5 1) =
    (⟨2, [4, 3], 1, 1⟩, ⟨3, [2, 1, 0], 1, 1⟩) := by decide +kernel

theorem pieces_spec (co : Nat → Nat → ℚ) (nth : Nat → Nat → List Nat → List Nat) (h : IsNth co nth) (g : Nat)
    (hg : 1 ≤ g) (fuel : Nat) (p : Piece) (hp : p.leaves.length = p.n) (hf : p.n ≤ fuel) :
    ∃ ps, pieces nth g fuel p = some ps ∧ (ps.flatMap (·.leaves)).Perm p.leaves ∧
      ∀ q ∈ ps, q.leaves.length = q.n ∧ q.n ≤ g ∧ (0 < p.n → 0 < q.n) ∧ q.maxWidth = p.maxWidth := by
  induction fuel generalizing p with
  | zero =>
    refine ⟨[p], ?_, by simp, ?_⟩
    · unfold pieces
      rw [if_pos]
      simp only [diceable, Bool.not_eq_true', decide_eq_false_iff_not]
      omega
    · intro q hq
      rw [List.mem_singleton] at hq
      subst hq
      exact ⟨hp, by omega, id, rfl⟩
  | succ fuel ih =>
    by_cases hd : diceable g p = true
    · refine ⟨[p], ?_, by simp, ?_⟩
      · unfold pieces
        rw [if_pos hd]
      · intro q hq
        rw [List.mem_singleton] at hq
        subst hq
        simp only [diceable, Bool.not_eq_true', decide_eq_false_iff_not] at hd
        exact ⟨hp, by omega, id, rfl⟩
    · obtain ⟨s1, s2, s3, s4, s5, -, -, -, s6, s7⟩ := C70_split co nth h p hp
      have hd' := hd
      simp only [diceable, Bool.not_eq_true', decide_eq_false_iff_not] at hd'
      obtain ⟨pa, a1, a2, a3⟩ := ih (split nth p).1 s2 (by omega)
      obtain ⟨pb, b1, b2, b3⟩ := ih (split nth p).2 s3 (by omega)
      refine ⟨pa ++ pb, ?_, ?_, ?_⟩
      · unfold pieces
        rw [if_neg hd]
        dsimp only
        rw [a1, Option.bind_some, b1]
        rfl
      · rw [List.flatMap_append]
        exact (a2.append b2).trans s1
      · intro q hq
        rcases List.mem_append.1 hq with hq | hq
        · obtain ⟨c1, c2, c3, c4⟩ := a3 q hq
          exact ⟨c1, c2, fun _ => c3 (by omega), by rw [c4, s6]⟩
        · obtain ⟨c1, c2, c3, c4⟩ := b3 q hq
          exact ⟨c1, c2, fun _ => c3 (by omega), by rw [c4, s7]⟩

/-- C70: for a grid size of at least 1, splitting ends, and then every point is in exactly one of the pieces, none of
which is empty or larger than the grid size. What is missing: a grid size of 0, see `C70_gridsize_violated`. -/
theorem C70_pieces_partial (co : Nat → Nat → ℚ) (nth : Nat → Nat → List Nat → List Nat) (h : IsNth co nth) (g : Nat)
    (hg : 1 ≤ g) (npoints : Nat) (w : ℚ) (fuel : Nat) (hf : npoints ≤ fuel) :
    ∃ ps, pieces nth g fuel (whole npoints w) = some ps ∧
      (∀ k, k < npoints ↔ k ∈ ps.flatMap (·.leaves)) ∧ (ps.flatMap (·.leaves)).Nodup ∧
      ∀ q ∈ ps, q.leaves.length = q.n ∧ q.n ≤ g ∧ (0 < npoints → 0 < q.n) ∧ q.maxWidth = w := by
  obtain ⟨ps, h1, h2, h3⟩ := pieces_spec co nth h g hg fuel (whole npoints w) (by simp [whole]) hf
  refine ⟨ps, h1, ?_, ?_, h3⟩
  · intro k
    rw [h2.mem_iff]
    simp [whole]
  · exact h2.nodup_iff.2 List.nodup_range

example : (pieces (nthSort fun _ i => i) 2 5 (whole 5 1)).map (fun ps => ps.map (·.leaves)) =
    some [[0, 1], [2], [3, 4]] := by decide +kernel

/-- C70, negation: with `Option "limits" "integer gridsize" [0]` a single point is split for ever. -/
theorem C70_gridsize_violated (co : Nat → Nat → ℚ) (nth : Nat → Nat → List Nat → List Nat) (_h : IsNth co nth) (w : ℚ)
    (fuel : Nat) : pieces nth 0 fuel (whole 1 w) = none := by
  have : ∀ (fuel : Nat) (p : Piece), p.n = 1 → pieces nth 0 fuel p = none := by
    intro fuel
    induction fuel with
    | zero =>
      intro p hp
      unfold pieces
      rw [if_neg]
      simp [diceable, hp]
    | succ fuel ih =>
      intro p hp
      unfold pieces
      rw [if_neg (by simp [diceable, hp])]
      dsimp only
      rw [ih (split nth p).2 (by simp [split, hp])]
      cases pieces nth 0 fuel (split nth p).1 <;> rfl
  exact this fuel _ rfl

/-! ## Values -/

theorem mapM_some_of {β γ : Type} (f : β → Option γ) (g : β → γ) (l : List β)
    (h : ∀ b ∈ l, f b = some (g b)) : l.mapM f = some (l.map g) := by
  induction l with
  | nil => rfl
  | cons b l ih =>
    rw [List.mapM_cons, h b List.mem_cons_self, ih (fun b hb => h b (List.mem_cons_of_mem _ hb))]
    rfl

theorem mapM_length {β γ : Type} (f : β → Option γ) (l : List β) (r : List γ) (h : l.mapM f = some r) :
    r.length = l.length ∧ ∀ (i : Nat) b, l[i]? = some b → f b = r[i]? := by
  induction l generalizing r with
  | nil =>
    simp only [List.mapM_nil] at h
    obtain rfl : [] = r := Option.some.inj h
    exact ⟨rfl, by simp⟩
  | cons b l ih =>
    rw [List.mapM_cons] at h
    cases hb : f b with
    | none => rw [hb] at h; cases h
    | some c =>
      rw [hb] at h
      cases hl : l.mapM f with
      | none => rw [hl] at h; cases h
      | some cs =>
        rw [hl] at h
        obtain rfl : c :: cs = r := Option.some.inj h
        obtain ⟨i1, i2⟩ := ih cs hl
        refine ⟨by simp [i1], ?_⟩
        intro i b' hi
        cases i with
        | zero =>
          simp only [List.getElem?_cons_zero, Option.some.injEq] at hi ⊢
          rw [← hi, hb]
        | succ i =>
          simp only [List.getElem?_cons_succ] at hi ⊢
          exact i2 i b' hi

/-- C70: micropolygon `i` of a piece shows the values of the point that the piece has at position `i`, for every element of
an array variable with values for each point; and its width is that of the same point if widths are given, otherwise the
constant width, otherwise 1. -/
theorem C70_values {α : Type} (p : Piece) (hp : p.leaves.length = p.n) (npoints : Nat)
    (hlt : ∀ k ∈ p.leaves, k < npoints) (src : List α) (arraySize j : Nat) (hj : j < arraySize)
    (hsrc : src.length = arraySize * npoints) :
    (∃ vals, naturalDice src arraySize j p.leaves p.n = some vals ∧ vals.length = p.n ∧
      ∀ (i k : Nat), p.leaves[i]? = some k → vals[i]? = src[arraySize * k + j]? ∧ (vals[i]?).isSome) ∧
    ∀ (i k : Nat), p.leaves[i]? = some k → ∀ (c : Option ℚ) (w : Nat → ℚ),
      widthOf c (some w) p i = some (w k) ∧ widthOf c none p i = some (c.getD 1) := by
  constructor
  · have key : ∀ (i k : Nat), p.leaves[i]? = some k → ∃ v, src[arraySize * k + j]? = some v := by
      intro i k hk
      have hk' := hlt k (List.mem_of_getElem? hk)
      have : arraySize * k + j < src.length := by
        rw [hsrc]
        calc arraySize * k + j < arraySize * k + arraySize := by omega
          _ = arraySize * (k + 1) := by ring
          _ ≤ arraySize * npoints := Nat.mul_le_mul_left _ hk'
      exact ⟨_, List.getElem?_eq_getElem this⟩
    have hsome : ∀ i ∈ List.range p.n, ∃ v, ((p.leaves[i]?).bind fun k => src[arraySize * k + j]?) = some v := by
      intro i hi
      rw [List.mem_range, ← hp] at hi
      have e := List.getElem?_eq_getElem hi
      obtain ⟨v, hv⟩ := key i _ e
      exact ⟨v, by rw [e, Option.bind_some, hv]⟩
    have : ∃ vals, naturalDice src arraySize j p.leaves p.n = some vals := by
      unfold naturalDice
      revert hsome
      generalize List.range p.n = l
      intro hsome
      induction l with
      | nil => exact ⟨[], rfl⟩
      | cons b l ih =>
        obtain ⟨v, hv⟩ := hsome b List.mem_cons_self
        obtain ⟨vs, hvs⟩ := ih (fun i hi => hsome i (List.mem_cons_of_mem _ hi))
        exact ⟨v :: vs, by rw [List.mapM_cons, hv, hvs]; rfl⟩
    obtain ⟨vals, hv⟩ := this
    refine ⟨vals, hv, ?_⟩
    obtain ⟨l1, l2⟩ := mapM_length _ _ _ hv
    rw [List.length_range] at l1
    refine ⟨l1, ?_⟩
    intro i k hk
    have hi : i < p.n := by
      rw [← hp]
      exact (List.getElem?_eq_some_iff.1 hk).1
    have := l2 i i (List.getElem?_range hi)
    rw [hk, Option.bind_some] at this
    obtain ⟨v, hv'⟩ := key i k hk
    exact ⟨this.symm, by rw [← this, hv']; rfl⟩
  · intro i k hk c w
    unfold widthOf
    constructor
    · rw [hk]; rfl
    · cases c <;> rfl

example : naturalDice [10, 11, 12, 13, 14, 15] 2 1 [2, 0] 2 = some [15, 11] ∧
    widthOf (some 3) (some fun k => k + 1) ⟨2, [2, 0], 0, 0⟩ 0 = some 3 := by decide +kernel

/-- C70, negation: `Points "P" [0 0 0 1 0 0] "uniform color Cs" [1 0 0]`: a uniform variable has one value, but it is
read at the index of each point. -/
theorem C70_uniform_violated {α : Type} (red : α) (w : ℚ) :
    naturalDice [red] 1 0 (whole 2 w).leaves (whole 2 w).n = none := by
  rfl

/-! ## Bounds -/

/-- Scalar product. -/
def dot (u v : V3) : ℚ := u.x * v.x + u.y * v.y + u.z * v.z

/-- The matrix keeps angles: it turns, mirrors and scales evenly. -/
def Similar (m : M3) : Prop :=
  dot m.a m.b = 0 ∧ dot m.a m.c = 0 ∧ dot m.b m.c = 0 ∧ dot m.a m.a = dot m.b m.b ∧ dot m.a m.a = dot m.c m.c

/-- `nm` is the inverse transpose of `m`. -/
def Normals (m nm : M3) : Prop :=
  dot nm.a m.a = 1 ∧ dot nm.a m.b = 0 ∧ dot nm.a m.c = 0 ∧ dot nm.b m.a = 0 ∧ dot nm.b m.b = 1 ∧ dot nm.b m.c = 0 ∧
  dot nm.c m.a = 0 ∧ dot nm.c m.b = 0 ∧ dot nm.c m.c = 1

/-- C70: for transformations that keep angles, the width of a point in camera space is what the bound of the primitive is
enlarged by, hence half of it, the radius of the point, is less. What is missing: other transformations, see
`C70_width_violated`. -/
theorem C70_width_partial (m nm : M3) (hs : Similar m) (hn : nm.app ⟨1, 0, 0⟩ ≠ ⟨0, 0, 0⟩) (w : ℚ) :
    camWidth2 m nm w = boundWidth2 m w ∧ boundWidth2 m w = w ^ 2 * dot m.a m.a := by
  obtain ⟨h1, h2, h3, h4, h5⟩ := hs
  have e : ∀ v, len2 (m.app v) = dot m.a m.a * len2 v := by
    intro v
    simp only [dot] at h1 h2 h3 h4 h5
    simp only [len2, M3.app, dot]
    linear_combination 2 * v.x * v.y * h1 + 2 * v.x * v.z * h2 + 2 * v.y * v.z * h3 - v.y ^ 2 * h4 - v.z ^ 2 * h5
  have hpos : len2 (nm.app ⟨1, 0, 0⟩) ≠ 0 := by
    intro h0
    apply hn
    generalize nm.app ⟨1, 0, 0⟩ = v at h0
    obtain ⟨x, y, z⟩ := v
    simp only [len2] at h0
    have hx := sq_nonneg x
    have hy := sq_nonneg y
    have hz := sq_nonneg z
    have ex : x = 0 := pow_eq_zero_iff (two_ne_zero) |>.1 (by linarith)
    have ey : y = 0 := pow_eq_zero_iff (two_ne_zero) |>.1 (by linarith)
    have ez : z = 0 := pow_eq_zero_iff (two_ne_zero) |>.1 (by linarith)
    subst ex ey ez
    rfl
  have b : boundWidth2 m w = w ^ 2 * dot m.a m.a := by
    unfold boundWidth2
    rw [e]
    simp only [len2]
    ring
  refine ⟨?_, b⟩
  rw [b]
  unfold camWidth2
  dsimp only
  rw [e]
  field_simp

example : Similar ⟨⟨0, 2, 0⟩, ⟨-2, 0, 0⟩, ⟨0, 0, 2⟩⟩ ∧
    camWidth2 ⟨⟨0, 2, 0⟩, ⟨-2, 0, 0⟩, ⟨0, 0, 2⟩⟩ ⟨⟨0, 1/2, 0⟩, ⟨-1/2, 0, 0⟩, ⟨0, 0, 1/2⟩⟩ 3 = 36 := by
  simp only [Similar]
  decide +kernel

/-- C70, negation: a quarter turn followed by `Scale 5 1 1`. The width of the points becomes five times as large, their
radius two and a half times, but the bound of the primitive is enlarged by the width before scaling: points at its border
stick out of the bound. (The direction in which the width is measured is brought to camera space and then transformed
again.) -/
theorem C70_width_violated : ∃ m nm : M3, Normals m nm ∧ ∀ w : ℚ, w ≠ 0 →
    boundWidth2 m w < camWidth2 m nm w / 4 := by
  refine ⟨⟨⟨0, 1, 0⟩, ⟨-5, 0, 0⟩, ⟨0, 0, 1⟩⟩, ⟨⟨0, 1, 0⟩, ⟨-1/5, 0, 0⟩, ⟨0, 0, 1⟩⟩, ?_, ?_⟩
  · simp only [Normals]
    decide +kernel
  · intro w hw
    have : 0 < w ^ 2 := by positivity
    simp only [boundWidth2, camWidth2, len2, M3.app]
    norm_num
    linarith

/-- The box around a point, of half the side `r`, is in the bound. -/
def Bound.Has (b : Bound) (v : V3) (r : ℚ) : Prop :=
  b.lo.x ≤ v.x - r ∧ v.x + r ≤ b.hi.x ∧ b.lo.y ≤ v.y - r ∧ v.y + r ≤ b.hi.y ∧ b.lo.z ≤ v.z - r ∧ v.z + r ≤ b.hi.z

theorem foldl_has (P : Nat → V3) (is : List Nat) (b : Bound) :
    (∀ v, b.Has v 0 → (is.foldl (fun b i => b.add (P i)) b).Has v 0) ∧
    ∀ i ∈ is, (is.foldl (fun b i => b.add (P i)) b).Has (P i) 0 := by
  induction is generalizing b with
  | nil => exact ⟨fun v h => h, by simp⟩
  | cons i is ih =>
    obtain ⟨i1, i2⟩ := ih (b.add (P i))
    have e1 : ∀ v, b.Has v 0 → (b.add (P i)).Has v 0 := by
      rintro v ⟨h1, h2, h3, h4, h5, h6⟩
      exact ⟨le_trans (min_le_left _ _) h1, le_trans h2 (le_max_left _ _), le_trans (min_le_left _ _) h3,
        le_trans h4 (le_max_left _ _), le_trans (min_le_left _ _) h5, le_trans h6 (le_max_left _ _)⟩
    have e2 : (b.add (P i)).Has (P i) 0 := by
      refine ⟨?_, ?_, ?_, ?_, ?_, ?_⟩ <;> simp [Bound.add]
    refine ⟨fun v h => i1 v (e1 v h), ?_⟩
    intro j hj
    rcases List.mem_cons.1 hj with rfl | hj
    · exact i1 _ e2
    · exact i2 j hj

theorem leaves_mapM (p : Piece) (hp : p.leaves.length = p.n) :
    ((List.range p.n).mapM fun i => p.leaves[i]?) = some p.leaves := by
  have := mapM_some_of (fun i => p.leaves[i]?) (fun i => p.leaves[i]?.getD 0) (List.range p.n) (by
    intro i hi
    rw [List.mem_range, ← hp] at hi
    rw [List.getElem?_eq_getElem hi]
    rfl)
  rw [this]
  congr 1
  apply List.ext_getElem?
  intro i
  rw [List.getElem?_map]
  by_cases hi : i < p.n
  · rw [List.getElem?_range hi, Option.map_some]
    rw [List.getElem?_eq_getElem (by omega)]
    rfl
  · rw [List.getElem?_eq_none (by simp; omega), List.getElem?_eq_none (by omega)]
    rfl

/-- C70: the bound of a piece holds each of its points with the largest width around it, and what was in the bound
before. -/
theorem C70_bound (P : Nat → V3) (p : Piece) (hp : p.leaves.length = p.n) (b : Bound) :
    ∃ b', bound P p b = some b' ∧ (∀ i ∈ p.leaves, b'.Has (P i) p.maxWidth) ∧
      ∀ v, b.Has v 0 → b'.Has v p.maxWidth := by
  unfold bound
  rw [leaves_mapM p hp, Option.map_some]
  obtain ⟨h1, h2⟩ := foldl_has P p.leaves b
  have sh : ∀ (c : Bound) (v : V3) (w : ℚ), c.Has v 0 →
      Bound.Has ⟨⟨c.lo.x - w, c.lo.y - w, c.lo.z - w⟩, ⟨c.hi.x + w, c.hi.y + w, c.hi.z + w⟩⟩ v w := by
    rintro c v w ⟨a1, a2, a3, a4, a5, a6⟩
    refine ⟨?_, ?_, ?_, ?_, ?_, ?_⟩ <;> simp only <;> linarith
  exact ⟨_, rfl, fun i hi => sh _ _ _ (h2 i hi), fun v hv => sh _ _ _ (h1 v hv)⟩

example : bound (fun i => ⟨i, 0, 0⟩) (whole 3 1) (emptyBound 1000) = some ⟨⟨-1, -1, -1⟩, ⟨3, 1, 1⟩⟩ := by decide +kernel

theorem union_has {b c : Bound} {v : V3} {r : ℚ} :
    (b.Has v r → (b.union c).Has v r) ∧ (c.Has v r → (b.union c).Has v r) := by
  constructor
  · rintro ⟨h1, h2, h3, h4, h5, h6⟩
    exact ⟨le_trans (min_le_left _ _) h1, le_trans h2 (le_max_left _ _), le_trans (min_le_left _ _) h3,
      le_trans h4 (le_max_left _ _), le_trans (min_le_left _ _) h5, le_trans h6 (le_max_left _ _)⟩
  · rintro ⟨h1, h2, h3, h4, h5, h6⟩
    exact ⟨le_trans (min_le_right _ _) h1, le_trans h2 (le_max_right _ _), le_trans (min_le_right _ _) h3,
      le_trans h4 (le_max_right _ _), le_trans (min_le_right _ _) h5, le_trans h6 (le_max_right _ _)⟩

/-- C70: the bound of a deforming primitive holds the points of all times with the largest width of that time. What is
missing: after a split, the largest width of the later times is forgotten, see `C70_deforming_violated`. -/
theorem C70_deforming_partial (big : ℚ) (times : List ((Nat → V3) × Piece))
    (hok : ∀ t ∈ times, t.2.leaves.length = t.2.n) :
    ∃ b, deformingBound big times = some b ∧
      ∀ t ∈ times, ∀ i ∈ t.2.leaves, b.Has (t.1 i) t.2.maxWidth := by
  have : ∀ (times : List ((Nat → V3) × Piece)) (B acc : Bound), (∀ t ∈ times, t.2.leaves.length = t.2.n) →
      ∃ b, deformingBound.go B acc times = some b ∧ (∀ v r, acc.Has v r → b.Has v r) ∧
        ∀ t ∈ times, ∀ i ∈ t.2.leaves, b.Has (t.1 i) t.2.maxWidth := by
    intro times
    induction times with
    | nil => exact fun B acc _ => ⟨acc, rfl, fun _ _ h => h, by simp⟩
    | cons t times ih =>
      intro B acc hok
      obtain ⟨P, p⟩ := t
      obtain ⟨b', e1, e2, -⟩ := C70_bound P p (hok (P, p) List.mem_cons_self) B
      obtain ⟨b, f1, f2, f3⟩ := ih b' (acc.union b') (fun t ht => hok t (List.mem_cons_of_mem _ ht))
      refine ⟨b, ?_, ?_, ?_⟩
      · unfold deformingBound.go
        rw [e1, Option.bind_some]
        exact f1
      · intro v r h
        exact f2 v r (union_has.1 h)
      · intro t ht i hi
        rcases List.mem_cons.1 ht with rfl | ht
        · exact f2 _ _ (union_has.2 (e2 i hi))
        · exact f3 t ht i hi
  obtain ⟨b, h1, -, h3⟩ := this times (emptyBound big) (emptyBound big) hok
  exact ⟨b, h1, h3⟩

/-- C70, negation: two points of width 1 that move from near 0 to 100. After a split, the bound of the first piece ends at
the centre of its point at the second time: half of the point is outside. -/
theorem C70_deforming_violated :
    let nth := nthSort fun _ i => i
    let s := split nth (whole 2 1)
    let c := copySplit s.1 s.2
    ∃ b, deformingBound 1000000 [(fun i => ⟨i, 0, 0⟩, s.1), (fun i => ⟨100 + i, 0, 0⟩, c.1)] = some b ∧
      s.1.leaves = [0] ∧ b.hi.x = 100 ∧ ¬ b.Has ⟨100, 0, 0⟩ (1/2) := by
  refine ⟨⟨⟨-1, -1, -1⟩, ⟨100, 1, 1⟩⟩, by decide +kernel, by decide +kernel, rfl, ?_⟩
  rintro ⟨_, h, _⟩
  norm_num at h

/-! ## Samples -/

theorem disc_bound {px py r x y : ℚ} (hr : 0 ≤ r) (h : (px - x) ^ 2 + (py - y) ^ 2 < r * r) :
    px - r ≤ x ∧ x ≤ px + r ∧ py - r ≤ y ∧ y ≤ py + r := by
  have h1 : (px - x) ^ 2 < r ^ 2 := by nlinarith [sq_nonneg (py - y)]
  have h2 : (py - y) ^ 2 < r ^ 2 := by nlinarith [sq_nonneg (px - x)]
  have a1 := abs_lt_of_sq_lt_sq h1 hr
  have a2 := abs_lt_of_sq_lt_sq h2 hr
  rw [abs_lt] at a1 a2
  exact ⟨by linarith, by linarith, by linarith, by linarith⟩

/-- The sample position is in the bound. -/
def Bound.Over (b : Bound) (x y : ℚ) : Prop := b.lo.x ≤ x ∧ x ≤ b.hi.x ∧ b.lo.y ≤ y ∧ y ≤ b.hi.y

/-- C70: a point at rest is hit exactly by the samples less than its radius away, at its depth, and all of these are in
its bound. -/
theorem C70_hit (pos : V3) (r : ℚ) (hr : 0 ≤ r) (x y d : ℚ) :
    (sample pos r x y = some d ↔ (pos.x - x) ^ 2 + (pos.y - y) ^ 2 < r ^ 2 ∧ d = pos.z) ∧
    (sample pos r x y = some d → (pointBound pos r).Over x y ∧ (pointBound pos r).lo.z ≤ d ∧
      d ≤ (pointBound pos r).hi.z) := by
  have h : sample pos r x y = some d ↔ (pos.x - x) ^ 2 + (pos.y - y) ^ 2 < r ^ 2 ∧ d = pos.z := by
    unfold sample
    rw [show r * r = r ^ 2 by ring]
    split_ifs with h
    · simp [h, eq_comm]
    · simp [h]
  refine ⟨h, ?_⟩
  intro hd
  obtain ⟨h1, rfl⟩ := h.1 hd
  exact ⟨disc_bound hr (by rw [show r * r = r ^ 2 by ring]; exact h1), le_rfl, le_rfl⟩

example : sample ⟨1, 1, 5⟩ 1 1 (3/2) = some 5 ∧ sample ⟨1, 1, 5⟩ 1 1 2 = none := by decide +kernel

/-- A number a fraction `f` of the way from `a` to `b`. -/
def lerp (f a b : ℚ) : ℚ := (1 - f) * a + f * b

theorem findSpan_spec (t : ℚ) (a b : Key) (l1 l2 : List Key) (k : Key) (ks : List Key) (h : k :: ks = l1 ++ a :: b :: l2)
    (hinc : (k :: ks).Pairwise (fun x y => x.time < y.time)) (h1 : a.time ≤ t) (h2 : t < b.time) :
    findSpan t k ks = (a, some b) := by
  induction l1 generalizing k ks with
  | nil =>
    simp only [List.nil_append, List.cons.injEq] at h
    obtain ⟨rfl, rfl⟩ := h
    unfold findSpan
    rw [if_neg (by simpa using h2)]
  | cons c l1 ih =>
    simp only [List.cons_append, List.cons.injEq] at h
    obtain ⟨rfl, rfl⟩ := h
    cases l1 with
    | nil =>
      simp only [List.nil_append] at hinc ⊢
      unfold findSpan
      rw [if_pos h1]
      exact ih a (b :: l2) rfl (List.pairwise_cons.1 hinc).2
    | cons c' l1 =>
      simp only [List.cons_append] at hinc ⊢
      have hp := (List.pairwise_cons.1 hinc).2
      have : c'.time < a.time := (List.pairwise_cons.1 hp).1 a (by simp)
      unfold findSpan
      rw [if_pos (by linarith)]
      exact ih c' (l1 ++ a :: b :: l2) rfl hp

theorem findSpan_last (t : ℚ) (k : Key) (ks : List Key) (h : ∀ q ∈ k :: ks, q.time ≤ t) :
    findSpan t k ks = ((k :: ks).getLast (by simp), none) := by
  induction ks generalizing k with
  | nil => rfl
  | cons k' ks ih =>
    unfold findSpan
    rw [if_pos (h k' (by simp)), ih k' (fun q hq => h q (List.mem_cons_of_mem _ hq))]
    rw [List.getLast_cons (a := k) (List.cons_ne_nil k' ks)]

/-- C70: a moving point is where it is at the first key before that, at the last key after that, and between two
consecutive keys on the straight way from one to the other, its radius changing evenly; it is hit exactly when a point at
rest of that position and radius is. -/
theorem C70_moving (keys : List Key) (hinc : keys.Pairwise (fun x y => x.time < y.time)) (t x y : ℚ) :
    (∀ k ks, keys = k :: ks → t ≤ k.time → sampleMoving keys t x y = sample k.pos k.r x y) ∧
    (∀ k ks, keys = ks ++ [k] → k.time ≤ t → sampleMoving keys t x y = sample k.pos k.r x y) ∧
    (∀ a b l1 l2, keys = l1 ++ a :: b :: l2 → a.time ≤ t → t < b.time → ∃ f, t = lerp f a.time b.time ∧
      sampleMoving keys t x y = sample ⟨lerp f a.pos.x b.pos.x, lerp f a.pos.y b.pos.y, lerp f a.pos.z b.pos.z⟩
        (lerp f a.r b.r) x y) := by
  refine ⟨?_, ?_, ?_⟩
  · rintro k ks rfl h
    simp only [sampleMoving, atTime]
    rw [if_neg (by linarith), Option.bind_some]
  · rintro k ks rfl h
    have hall : ∀ q ∈ ks ++ [k], q.time ≤ t := by
      intro q hq
      rcases List.mem_append.1 hq with hq | hq
      · have := (List.pairwise_append.1 hinc).2.2 q hq k (by simp)
        linarith
      · rw [List.mem_singleton] at hq
        subst hq
        exact h
    cases ks with
    | nil =>
      simp only [List.nil_append, sampleMoving, atTime]
      split_ifs
      · rfl
      · rfl
    | cons c ks =>
      simp only [List.cons_append, sampleMoving, atTime]
      have hc : c.time < k.time := by
        rw [List.cons_append] at hinc
        exact (List.pairwise_cons.1 hinc).1 k (by simp)
      rw [if_pos (by linarith), findSpan_last t c (ks ++ [k]) hall]
      have : (c :: (ks ++ [k])).getLast (by simp) = k := by simp
      rw [this]
      rfl
  · rintro a b l1 l2 hk h1 h2
    have hab : 0 < b.time - a.time := by linarith
    refine ⟨(t - a.time) / (b.time - a.time), ?_, ?_⟩
    · unfold lerp
      field_simp
      ring
    · cases keys with
      | nil => simp at hk
      | cons k ks =>
        simp only [sampleMoving, atTime]
        by_cases hs : t > k.time
        · rw [if_pos hs, findSpan_spec t a b l1 l2 k ks hk hinc h1 h2]
          simp only
          by_cases he : a.time = t
          · rw [if_pos he, he]
            simp [lerp]
          · rw [if_neg he, Option.bind_some]
            simp only [lerp]
            congr 1
            · congr 1 <;> ring
            · ring
        · rw [if_neg hs]
          have hka : k = a := by
            cases l1 with
            | nil =>
              simp only [List.nil_append, List.cons.injEq] at hk
              exact hk.1
            | cons c l1 =>
              exfalso
              simp only [List.cons_append, List.cons.injEq] at hk
              obtain ⟨rfl, rfl⟩ := hk
              have := (List.pairwise_cons.1 hinc).1 a (by simp)
              linarith
          subst hka
          have : t = k.time := by linarith
          rw [this]
          simp [lerp]

example : sampleMoving [⟨0, ⟨0, 0, 1⟩, 1⟩, ⟨1, ⟨4, 0, 3⟩, 1⟩] (1/2) 2 0 = some 2 := by decide +kernel

/-- The bounds whose time has come at `t`: from the time of the bound to that of the next one
(libs/core/bucketprocessor.cpp:1253-1268). -/
def Current (l : List (Bound × ℚ)) (t : ℚ) (b : Bound) : Prop :=
  ∃ i s, l[i]? = some (b, s) ∧ s ≤ t ∧ ∀ b' s', l[i + 1]? = some (b', s') → t ≤ s'

theorem lerp_between {f g h a b : ℚ} (h1 : g ≤ f) (h2 : f ≤ h) :
    min (g * (b - a) + a) (h * (b - a) + a) ≤ f * (b - a) + a ∧
    f * (b - a) + a ≤ max (g * (b - a) + a) (h * (b - a) + a) := by
  rcases le_total a b with hab | hab
  · have m1 := mul_le_mul_of_nonneg_right h1 (sub_nonneg.2 hab)
    have m2 := mul_le_mul_of_nonneg_right h2 (sub_nonneg.2 hab)
    exact ⟨le_trans (min_le_left _ _) (by linarith), le_trans (by linarith) (le_max_right _ _)⟩
  · have m1 := mul_le_mul_of_nonneg_right h1 (sub_nonneg.2 hab)
    have m2 := mul_le_mul_of_nonneg_right h2 (sub_nonneg.2 hab)
    exact ⟨le_trans (min_le_right _ _) (by linarith), le_trans (by linarith) (le_max_left _ _)⟩

/-- C70: for a moving point with two keys, every sample that hits it at some time lies in a bound of the list whose time has
come. What is missing: more than two keys, see `C70_motion_bounds_violated`. -/
theorem C70_motion_bounds_partial (a b : Key) (hab : a.time < b.time) (ha : 0 ≤ a.r) (hb : 0 ≤ b.r) (t x y d : ℚ)
    (ht : a.time ≤ t) (hit : sampleMoving [a, b] t x y = some d) :
    ∃ bd, Current (buildBoundList [a, b]) t bd ∧ bd.Over x y := by
  have hinc : [a, b].Pairwise (fun x y => x.time < y.time) := by simp [hab]
  obtain ⟨-, m2, m3⟩ := C70_moving [a, b] hinc t x y
  have hD : 0 < b.time - a.time := by linarith
  by_cases hlast : b.time ≤ t
  · rw [m2 b [a] rfl hlast] at hit
    obtain ⟨⟨o1, o2, o3, o4⟩, -⟩ := (C70_hit b.pos b.r hb x y d).2 hit
    simp only [pointBound] at o1 o2 o3 o4
    simp only [buildBoundList, buildBoundList.go, segment]
    refine ⟨_, ⟨3, _, rfl, ?_, by simp⟩, ?_⟩
    · linarith
    · simp only [Bound.Over, Bound.union, pointBound]
      refine ⟨le_trans (min_le_left _ _) ?_, le_trans ?_ (le_max_left _ _), le_trans (min_le_left _ _) ?_,
        le_trans ?_ (le_max_left _ _)⟩ <;> linarith
  · obtain ⟨f, hf, e⟩ := m3 a b [] [] rfl ht (by linarith)
    rw [e] at hit
    unfold lerp at hf
    have f0 : 0 ≤ f := by
      by_contra h
      have := mul_neg_of_neg_of_pos (not_le.1 h) hD
      linarith
    have f1 : f ≤ 1 := by
      by_contra h
      have := mul_pos (sub_pos.2 (not_le.1 h)) hD
      linarith
    have hr : 0 ≤ lerp f a.r b.r := by
      unfold lerp
      have := mul_nonneg (sub_nonneg.2 f1) ha
      have := mul_nonneg f0 hb
      linarith
    obtain ⟨⟨o1, o2, o3, o4⟩, -⟩ := (C70_hit _ _ hr x y d).2 hit
    simp only [pointBound, lerp] at o1 o2 o3 o4
    have key : ∀ g h : ℚ, g ≤ f → f ≤ h →
        (min (g * ((b.pos.x - b.r) - (a.pos.x - a.r)) + (a.pos.x - a.r))
          (h * ((b.pos.x - b.r) - (a.pos.x - a.r)) + (a.pos.x - a.r)) ≤ x) ∧
        (x ≤ max (g * ((b.pos.x + b.r) - (a.pos.x + a.r)) + (a.pos.x + a.r))
          (h * ((b.pos.x + b.r) - (a.pos.x + a.r)) + (a.pos.x + a.r))) ∧
        (min (g * ((b.pos.y - b.r) - (a.pos.y - a.r)) + (a.pos.y - a.r))
          (h * ((b.pos.y - b.r) - (a.pos.y - a.r)) + (a.pos.y - a.r)) ≤ y) ∧
        (y ≤ max (g * ((b.pos.y + b.r) - (a.pos.y + a.r)) + (a.pos.y + a.r))
          (h * ((b.pos.y + b.r) - (a.pos.y + a.r)) + (a.pos.y + a.r))) := by
      intro g h h1 h2
      refine ⟨le_trans (lerp_between h1 h2).1 ?_, le_trans ?_ (lerp_between h1 h2).2,
        le_trans (lerp_between h1 h2).1 ?_, le_trans ?_ (lerp_between h1 h2).2⟩ <;> linarith
    have tm : ∀ g, g ≤ f → g * (b.time - a.time) + a.time ≤ t := by
      intro g hg
      have := mul_le_mul_of_nonneg_right hg hD.le
      linarith
    have tM : ∀ g, f ≤ g → t ≤ g * (b.time - a.time) + a.time := by
      intro g hg
      have := mul_le_mul_of_nonneg_right hg hD.le
      linarith
    simp only [buildBoundList, buildBoundList.go, segment]
    rcases le_total f (1/4) with c1 | c1
    · refine ⟨_, ⟨0, _, rfl, ht, ?_⟩, ?_⟩
      · intro b' s' h
        simp only [Nat.zero_add, List.getElem?_cons_succ, List.getElem?_cons_zero, Option.some.injEq,
          Prod.mk.injEq] at h
        rw [← h.2]
        exact tM _ c1
      · have := key 0 (1/4) f0 c1
        simp only [zero_mul, zero_add] at this
        exact this
    · rcases le_total f (1/4 + 1/4) with c2 | c2
      · refine ⟨_, ⟨1, _, rfl, tm _ c1, ?_⟩, ?_⟩
        · intro b' s' h
          simp only [Nat.reduceAdd, List.getElem?_cons_succ, List.getElem?_cons_zero, Option.some.injEq,
            Prod.mk.injEq] at h
          rw [← h.2]
          exact tM _ c2
        · exact key _ _ c1 c2
      · refine ⟨_, ⟨2, _, rfl, tm _ c2, ?_⟩, ?_⟩
        · intro b' s' h
          simp only [Nat.reduceAdd, List.getElem?_cons_succ, List.getElem?_cons_zero, Option.some.injEq,
            Prod.mk.injEq] at h
          rw [← h.2]
          exact tM _ (by linarith)
        · exact key _ _ c2 (by linarith)

example : (buildBoundList [⟨0, ⟨0, 0, 1⟩, 1⟩, ⟨1, ⟨4, 0, 1⟩, 1⟩]).map (fun p => (p.1.lo.x, p.1.hi.x, p.2)) =
    [(-1, 2, 0), (0, 3, 1/4), (1, 5, 1/2), (3, 9, 1)] := by decide +kernel

/-- C70, negation: with three keys, only the bounds of the last part of the way are kept. At time 1/4 the point is hit, but
no bound of the list is current. -/
theorem C70_motion_bounds_violated :
    let keys : List Key := [⟨0, ⟨0, 0, 1⟩, 1⟩, ⟨1/2, ⟨4, 0, 1⟩, 1⟩, ⟨1, ⟨8, 0, 1⟩, 1⟩]
    sampleMoving keys (1/4) 2 0 = some 1 ∧ ∀ b, ¬ Current (buildBoundList keys) (1/4) b := by
  refine ⟨by decide +kernel, ?_⟩
  rintro b ⟨i, s, h, hs, -⟩
  have hall : ∀ p ∈ buildBoundList [⟨0, ⟨0, 0, 1⟩, 1⟩, ⟨1/2, ⟨4, 0, 1⟩, 1⟩, ⟨1, ⟨8, 0, 1⟩, 1⟩], (1/4 : ℚ) < p.2 := by
    decide +kernel
  have := hall (b, s) (List.mem_of_getElem? h)
  simp only at this
  linarith

/-! ## Moving transformations -/

/-- C70: the points of a moving object are at each key time where the transformation of that time puts them, if the
transformations of the first time and of time 0 are the same. What is missing: the other case, see
`C70_reference_violated`. -/
theorem C70_reference_partial {V : Type} (M : ℚ → V ≃ V) (firstTime t : ℚ) (h : M firstTime = M 0) (p : V) :
    movedPoint M firstTime t p = M t p := by
  unfold movedPoint
  rw [h, Equiv.symm_apply_apply]

example : movedPoint (fun t => if t < 1 then Equiv.refl Bool else ⟨not, not, Bool.not_not, Bool.not_not⟩) (1/2) 2 true = false := by decide +kernel

/-- C70, negation: `MotionBegin [-1 1] Translate 0 0 0 Translate 2 0 0`. The position `t + 1` at time `t` becomes `t`. -/
theorem C70_reference_violated : ∃ M : ℚ → ℚ ≃ ℚ, (∀ t p, M t p = p + (t + 1)) ∧
    ∀ t p, movedPoint M (-1) t p = p + t := by
  refine ⟨fun t => ⟨fun p => p + (t + 1), fun p => p - (t + 1), fun p => by simp, fun p => by simp⟩, fun _ _ => rfl, ?_⟩
  intro t p
  simp [movedPoint]

end Verif.Geom.Points
