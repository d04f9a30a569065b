import Verif.Core.Occlusion
import Mathlib.Tactic.Linarith
import Mathlib.Tactic.Ring
import Mathlib.Tactic.FieldSimp
import Mathlib.Tactic.NormNum
import Mathlib.Data.List.Nodup
/-
C28: occlusion culling never discards something visible.
C29: each sample owns its own occlusion leaf, at the right place.
-/
namespace Verif.Core.Occlusion

/-! ## The loop and the tree -/

section
variable {α δ : Type} [LinearOrder α] [LinearOrder δ]

/-- The box of the `k`-th leaf below a node, `h` levels down. -/
def leafBox (mid : α → α → α) : Nat → Node α → Nat → Node α
  | 0, n, _ => n
  | h + 1, n, k =>
    if k < 2 ^ h then leafBox mid h (halves mid n).1 k
    else leafBox mid h (halves mid n).2 (k - 2 ^ h)

/-- `canCull` on the part of the tree below a node. -/
def subCull (mid : α → α → α) (d : Nat → δ) (x0 y0 x1 y1 : α) (z : δ) : Nat → Node α → Bool
  | h, n =>
    if meets x0 y0 x1 y1 n then
      if d n.index < z then true
      else match h with
        | 0 => false
        | h + 1 => subCull mid d x0 y0 x1 y1 z h (halves mid n).2 &&
            subCull mid d x0 y0 x1 y1 z h (halves mid n).1
    else true

/-- A node of height `h` in a tree of height `D`. -/
def AtHeight (D h : Nat) (n : Node α) : Prop :=
  h ≤ D ∧ 2 ^ (D - h) ≤ n.index + 1 ∧ n.index + 1 < 2 ^ (D - h + 1)

theorem halves_index (mid : α → α → α) (n : Node α) :
    (halves mid n).1.index = n.index * 2 + 1 ∧ (halves mid n).2.index = n.index * 2 + 2 := by
  unfold halves; split <;> exact ⟨rfl, rfl⟩

theorem atHeight_halves {mid : α → α → α} {D h : Nat} {n : Node α} (hn : AtHeight D (h + 1) n) :
    AtHeight D h (halves mid n).1 ∧ AtHeight D h (halves mid n).2 := by
  obtain ⟨h1, h2, h3⟩ := hn
  have e : D - h = D - (h + 1) + 1 := by omega
  obtain ⟨i1, i2⟩ := halves_index mid n
  unfold AtHeight
  rw [i1, i2, e]
  rw [pow_succ] at h3
  simp only [pow_succ]
  refine ⟨⟨by omega, by omega, by omega⟩, ⟨by omega, by omega, by omega⟩⟩

theorem atHeight_leaf {D h : Nat} {n : Node α} (hn : AtHeight D h n) :
    2 ^ D - 1 ≤ n.index ↔ h = 0 := by
  obtain ⟨h1, h2, h3⟩ := hn
  constructor
  · intro hle
    by_contra h0
    have : 2 ^ (D - h + 1) ≤ 2 ^ D := Nat.pow_le_pow_right (by omega) (by omega)
    have : 0 < 2 ^ D := Nat.two_pow_pos D
    omega
  · rintro rfl
    simp at h2
    omega

/-- The stack of the loop: heights, and how long it can be. -/
def StackOk (D : Nat) : List (Nat × Node α) → Prop
  | [] => True
  | p :: s => AtHeight D p.1 p.2 ∧ s.length ≤ D - p.1 ∧ StackOk D s

/-- How many turns a stack takes at most. -/
def cost : List (Nat × Node α) → Nat
  | [] => 1
  | p :: s => 2 ^ (p.1 + 1) - 1 + cost s

theorem cullLoop_eq (mid : α → α → α) (t : Tree α δ) (x0 y0 x1 y1 : α) (z : δ) (D : Nat)
    (hfl : t.firstLeaf = 2 ^ D - 1) : ∀ (fuel : Nat) (s : List (Nat × Node α)), StackOk D s →
    cost s ≤ fuel →
    cullLoop mid t x0 y0 x1 y1 z (2 * (D + 1)) fuel (s.map Prod.snd) =
      .cull (s.all (fun p => subCull mid t.depths x0 y0 x1 y1 z p.1 p.2)) := by
  intro fuel
  induction fuel with
  | zero =>
    intro s hs hf
    cases s with
    | nil => simp [cost] at hf
    | cons p s =>
      exfalso
      have : 2 ≤ 2 ^ (p.1 + 1) := by
        have := Nat.pow_le_pow_right (n := 2) (by omega) (show 1 ≤ p.1 + 1 by omega)
        simpa using this
      simp [cost] at hf
      omega
  | succ fuel ih =>
    intro s hs hf
    cases s with
    | nil => rfl
    | cons p s =>
      obtain ⟨h, n⟩ := p
      obtain ⟨hn, hl, hs'⟩ := hs
      have h2 : 2 ≤ 2 ^ (h + 1) := by
        have := Nat.pow_le_pow_right (n := 2) (by omega) (show 1 ≤ h + 1 by omega)
        simpa using this
      simp only [cost] at hf
      have hrest := ih s hs' (by omega)
      simp only [List.map_cons, cullLoop, List.all_cons]
      rw [subCull.eq_def]
      dsimp only
      by_cases hm : meets x0 y0 x1 y1 n = true
      · rw [if_pos hm, if_pos hm]
        by_cases hd : t.depths n.index < z
        · rw [if_pos hd, if_pos hd, hrest]; rfl
        · rw [if_neg hd, if_neg hd, hfl]
          by_cases h0 : h = 0
          · rw [if_pos ((atHeight_leaf hn).mpr h0)]
            subst h0; rfl
          · obtain ⟨h', rfl⟩ : ∃ h', h = h' + 1 := ⟨h - 1, by omega⟩
            rw [if_neg (fun hh => h0 ((atHeight_leaf hn).mp hh))]
            have hD := hn.1
            have hlen : s.length ≤ D - (h' + 1) := hl
            rw [if_neg (by simp only [List.length_map]; omega)]
            obtain ⟨g1, g2⟩ := atHeight_halves (mid := mid) hn
            have := ih ((h', (halves mid n).2) :: (h', (halves mid n).1) :: s)
              ⟨g2, by simp only [List.length_cons]; omega, g1, by omega, hs'⟩ (by
                simp only [cost]
                have e : 2 ^ (h' + 1 + 1) = 2 * 2 ^ (h' + 1) := by rw [pow_succ]; ring
                have : 2 ≤ 2 ^ (h' + 1) := by
                  have := Nat.pow_le_pow_right (n := 2) (by omega) (show 1 ≤ h' + 1 by omega)
                  simpa using this
                omega)
            simp only [List.map_cons, List.all_cons] at this
            rw [this]
            simp [Bool.and_assoc]
      · rw [if_neg hm, if_neg hm, hrest]; rfl

/-- `mid` gives a value between its arguments. -/
def Between (mid : α → α → α) : Prop := ∀ a b, a ≤ b → a ≤ mid b a ∧ mid b a ≤ b

/-- The corners of a box are in order. -/
def Ordered (n : Node α) : Prop := n.minX ≤ n.maxX ∧ n.minY ≤ n.maxY

/-- One box is inside another. -/
def Within (m n : Node α) : Prop :=
  n.minX ≤ m.minX ∧ m.maxX ≤ n.maxX ∧ n.minY ≤ m.minY ∧ m.maxY ≤ n.maxY

theorem halves_within {mid : α → α → α} (hmid : Between mid) {n : Node α} (hn : Ordered n) :
    (Ordered (halves mid n).1 ∧ Within (halves mid n).1 n) ∧
    (Ordered (halves mid n).2 ∧ Within (halves mid n).2 n) := by
  have hx := hmid _ _ hn.1
  have hy := hmid _ _ hn.2
  unfold halves
  split
  · exact ⟨⟨⟨hx.1, hn.2⟩, le_refl _, hx.2, le_refl _, le_refl _⟩,
      ⟨⟨hx.2, hn.2⟩, hx.1, le_refl _, le_refl _, le_refl _⟩⟩
  · exact ⟨⟨⟨hn.1, hy.1⟩, le_refl _, le_refl _, le_refl _, hy.2⟩,
      ⟨⟨hn.1, hy.2⟩, le_refl _, le_refl _, hy.1, le_refl _⟩⟩

theorem Within.trans {a b c : Node α} (h1 : Within a b) (h2 : Within b c) : Within a c :=
  ⟨le_trans h2.1 h1.1, le_trans h1.2.1 h2.2.1, le_trans h2.2.2.1 h1.2.2.1,
    le_trans h1.2.2.2 h2.2.2.2⟩

theorem leafBox_within {mid : α → α → α} (hmid : Between mid) : ∀ (h : Nat) (n : Node α) (k : Nat),
    Ordered n → Ordered (leafBox mid h n k) ∧ Within (leafBox mid h n k) n := by
  intro h
  induction h with
  | zero => intro n k hn; exact ⟨hn, le_refl _, le_refl _, le_refl _, le_refl _⟩
  | succ h ih =>
    intro n k hn
    obtain ⟨⟨o1, w1⟩, ⟨o2, w2⟩⟩ := halves_within hmid hn
    simp only [leafBox]
    split
    · obtain ⟨a, b⟩ := ih _ k o1
      exact ⟨a, b.trans w1⟩
    · obtain ⟨a, b⟩ := ih _ (k - 2 ^ h) o2
      exact ⟨a, b.trans w2⟩

theorem meets_within {x0 y0 x1 y1 : α} {m n : Node α} (h : Within m n)
    (hm : meets x0 y0 x1 y1 m = true) : meets x0 y0 x1 y1 n = true := by
  simp only [meets, Bool.not_eq_true', Bool.or_eq_false_iff, decide_eq_false_iff_not, not_lt,
    gt_iff_lt] at hm ⊢
  obtain ⟨⟨⟨h1, h2⟩, h3⟩, h4⟩ := hm
  exact ⟨⟨⟨le_trans h1 h.2.1, le_trans h2 h.2.2.2⟩, le_trans h.1 h3⟩, le_trans h.2.2.1 h4⟩

/-- Every inner node is at least as deep as its children. -/
def Dom (D : Nat) (d : Nat → δ) : Prop :=
  ∀ i, i < 2 ^ D - 1 → d (2 * i + 1) ≤ d i ∧ d (2 * i + 2) ≤ d i

theorem leafBox_index (mid : α → α → α) : ∀ (h : Nat) (n : Node α) (k : Nat), k < 2 ^ h →
    (leafBox mid h n k).index = (n.index + 1) * 2 ^ h - 1 + k := by
  intro h
  induction h with
  | zero => intro n k hk; simp [leafBox] at hk ⊢; omega
  | succ h ih =>
    intro n k hk
    obtain ⟨i1, i2⟩ := halves_index mid n
    have hp : 0 < 2 ^ h := Nat.two_pow_pos h
    simp only [leafBox]
    split
    · rename_i hk'
      rw [ih _ _ hk', i1]
      congr 1
      rw [pow_succ]
      ring_nf
    · rename_i hk'
      rw [ih _ _ (by rw [pow_succ] at hk; omega), i2]
      have e : (n.index * 2 + 2 + 1) * 2 ^ h = (n.index + 1) * 2 ^ (h + 1) + 2 ^ h := by
        rw [pow_succ]; ring
      have : 0 < (n.index + 1) * 2 ^ (h + 1) := Nat.mul_pos (by omega) (Nat.two_pow_pos _)
      omega

theorem subCull_iff {mid : α → α → α} (hmid : Between mid) {D : Nat} {d : Nat → δ} (hd : Dom D d)
    (x0 y0 x1 y1 : α) (z : δ) : ∀ (h : Nat) (n : Node α), AtHeight D h n → Ordered n →
    (subCull mid d x0 y0 x1 y1 z h n = true ↔
      ∀ k, k < 2 ^ h → meets x0 y0 x1 y1 (leafBox mid h n k) = true →
        d (leafBox mid h n k).index < z) ∧
    (∀ k, k < 2 ^ h → d (leafBox mid h n k).index ≤ d n.index) := by
  intro h
  induction h with
  | zero =>
    intro n hn ho
    refine ⟨?_, fun k _ => le_refl _⟩
    rw [subCull]
    constructor
    · intro hs k hk hm
      simp only [leafBox] at hm ⊢
      rw [if_pos hm] at hs
      by_contra hlt
      rw [if_neg hlt] at hs
      simp at hs
    · intro hall
      by_cases hm : meets x0 y0 x1 y1 n = true
      · have h0 : d n.index < z := hall 0 (by simp) hm
        rw [if_pos hm, if_pos h0]
      · rw [if_neg hm]
  | succ h ih =>
    intro n hn ho
    obtain ⟨g1, g2⟩ := atHeight_halves (mid := mid) hn
    obtain ⟨⟨o1, w1⟩, ⟨o2, w2⟩⟩ := halves_within hmid ho
    obtain ⟨i1, m1⟩ := ih _ g1 o1
    obtain ⟨i2, m2⟩ := ih _ g2 o2
    have hinner : n.index < 2 ^ D - 1 := by
      by_contra hc
      have := (atHeight_leaf hn).mp (by omega)
      omega
    obtain ⟨d1, d2⟩ := hd n.index hinner
    obtain ⟨e1, e2⟩ := halves_index mid n
    have hmax : ∀ k, k < 2 ^ (h + 1) → d (leafBox mid (h + 1) n k).index ≤ d n.index := by
      intro k hk
      simp only [leafBox]
      split
      · rename_i hk'
        refine le_trans (m1 k hk') ?_
        rw [e1, Nat.mul_comm]; exact d1
      · rename_i hk'
        refine le_trans (m2 (k - 2 ^ h) (by rw [pow_succ] at hk; omega)) ?_
        rw [e2, Nat.mul_comm]; exact d2
    refine ⟨?_, hmax⟩
    have hsplit : (∀ k, k < 2 ^ (h + 1) → meets x0 y0 x1 y1 (leafBox mid (h + 1) n k) = true →
          d (leafBox mid (h + 1) n k).index < z) ↔
        (∀ k, k < 2 ^ h → meets x0 y0 x1 y1 (leafBox mid h (halves mid n).2 k) = true →
          d (leafBox mid h (halves mid n).2 k).index < z) ∧
        (∀ k, k < 2 ^ h → meets x0 y0 x1 y1 (leafBox mid h (halves mid n).1 k) = true →
          d (leafBox mid h (halves mid n).1 k).index < z) := by
      constructor
      · intro H
        constructor
        · intro k hk
          have := H (k + 2 ^ h) (by rw [pow_succ]; omega)
          simpa [leafBox] using this
        · intro k hk
          have := H k (by rw [pow_succ]; omega)
          simpa [leafBox, hk] using this
      · rintro ⟨H2, H1⟩ k hk
        simp only [leafBox]
        split
        · rename_i hk'; exact H1 k hk'
        · exact H2 (k - 2 ^ h) (by rw [pow_succ] at hk; omega)
    rw [subCull]
    by_cases hm : meets x0 y0 x1 y1 n = true
    · rw [if_pos hm]
      by_cases hz : d n.index < z
      · rw [if_pos hz]
        refine ⟨fun _ k hk _ => lt_of_le_of_lt (hmax k hk) hz, fun _ => rfl⟩
      · rw [if_neg hz, hsplit]
        simp only [Bool.and_eq_true]
        rw [i1, i2]
    · rw [if_neg hm]
      refine ⟨fun _ k hk hmk => ?_, fun _ => rfl⟩
      exact absurd (meets_within (leafBox_within hmid (h + 1) n k ho).2 hmk) hm

theorem cmax_le {τ : Type} [LinearOrder τ] {a b c : τ} : cmax a b ≤ c ↔ a ≤ c ∧ b ≤ c := by
  unfold cmax
  split
  · rename_i h; exact ⟨fun h2 => ⟨le_trans (le_of_lt h) h2, h2⟩, fun h2 => h2.2⟩
  · rename_i h; exact ⟨fun h2 => ⟨h2, le_trans (not_lt.mp h) h2⟩, fun h2 => h2.1⟩

theorem le_cmin {τ : Type} [LinearOrder τ] {a b c : τ} : c ≤ cmin a b ↔ c ≤ a ∧ c ≤ b := by
  unfold cmin
  split
  · rename_i h; exact ⟨fun h2 => ⟨h2, le_trans h2 (le_of_lt h)⟩, fun h2 => h2.1⟩
  · rename_i h; exact ⟨fun h2 => ⟨le_trans h2 (not_lt.mp h), h2⟩, fun h2 => h2.2⟩

/-- The root of the tree. -/
def root (t : Tree α δ) : Node α :=
  { minX := t.minX, minY := t.minY, maxX := t.maxX, maxY := t.maxY, index := 0,
    splitInX := t.splitXFirst }

/-- Spec: a rectangle and a box have a point in common. -/
def Touches (x0 y0 x1 y1 : α) (n : Node α) : Prop :=
  x0 ≤ n.maxX ∧ n.minX ≤ x1 ∧ y0 ≤ n.maxY ∧ n.minY ≤ y1

/-- What `canCull` answers, on any tree that has the shape and the order of
depths that the operations keep. -/
theorem canCull_iff {mid : α → α → α} (hmid : Between mid) (t : Tree α δ) (D : Nat)
    (hfl : t.firstLeaf = 2 ^ D - 1) (hnl : t.numLevels = D + 1) (hd : Dom D t.depths)
    (hord : t.minX ≤ t.maxX ∧ t.minY ≤ t.maxY) (x0 y0 x1 y1 : α) (z : δ) (fuel : Nat)
    (hf : 2 ^ (D + 1) ≤ fuel) :
    ∃ b, canCull mid t x0 y0 x1 y1 z fuel = .cull b ∧
      (b = true ↔ ∀ k, k < 2 ^ D → Touches x0 y0 x1 y1 (leafBox mid D (root t) k) →
        t.depths (2 ^ D - 1 + k) < z) := by
  have hroot : AtHeight D D (root t) := ⟨le_refl _, by simp [root], by simp [root]⟩
  have hp : 0 < 2 ^ (D + 1) := Nat.two_pow_pos _
  have h1 := cullLoop_eq mid t (cmax x0 t.minX) (cmax y0 t.minY) (cmin x1 t.maxX) (cmin y1 t.maxY)
    z D hfl fuel [(D, root t)] ⟨hroot, by simp, trivial⟩ (by simp [cost]; omega)
  refine ⟨_, by rw [canCull, hnl]; exact h1, ?_⟩
  simp only [List.all_cons, List.all_nil, Bool.and_true]
  rw [(subCull_iff hmid hd _ _ _ _ z D (root t) hroot hord).1]
  apply forall_congr'
  intro k
  apply imp_congr_right
  intro hk
  have hidx : (leafBox mid D (root t) k).index = 2 ^ D - 1 + k := by
    rw [leafBox_index mid D _ k hk]; simp [root]
  rw [hidx]
  obtain ⟨ho, hw⟩ := leafBox_within hmid D (root t) k hord
  have : meets (cmax x0 t.minX) (cmax y0 t.minY) (cmin x1 t.maxX) (cmin y1 t.maxY)
      (leafBox mid D (root t) k) = true ↔ Touches x0 y0 x1 y1 (leafBox mid D (root t) k) := by
    simp only [meets, Bool.not_eq_true', Bool.or_eq_false_iff, decide_eq_false_iff_not, not_lt,
      gt_iff_lt, cmax_le, le_cmin, Touches]
    obtain ⟨w1, w2, w3, w4⟩ := hw
    simp only [root] at w1 w2 w3 w4
    constructor
    · rintro ⟨⟨⟨a, b⟩, c⟩, e⟩
      exact ⟨a.1, c.1, b.1, e.1⟩
    · rintro ⟨a, c, b, e⟩
      exact ⟨⟨⟨⟨a, le_trans w1 ho.1⟩, ⟨b, le_trans w3 ho.2⟩⟩, ⟨c, le_trans ho.1 w2⟩⟩,
        ⟨e, le_trans ho.2 w4⟩⟩
  rw [this]

/-! ### Propagating depths -/

theorem propagate_spec : ∀ (n : Nat) (t : Nat → δ),
    (∀ i, n ≤ i → propagate n t i = t i) ∧
    (∀ i, i < n → propagate n t i = cmax (propagate n t (2 * i + 1)) (propagate n t (2 * i + 2))) := by
  intro n
  induction n with
  | zero => intro t; exact ⟨fun _ _ => rfl, fun i h => absurd h (by omega)⟩
  | succ n ih =>
    intro t
    simp only [propagate]
    obtain ⟨h1, h2⟩ := ih (setAt t n (cmax (t (2 * n + 1)) (t (2 * n + 2))))
    refine ⟨?_, ?_⟩
    · intro i hi
      rw [h1 i (by omega)]
      simp [setAt, show i ≠ n by omega]
    · intro i hi
      by_cases hin : i = n
      · subst hin
        rw [h1 i (le_refl _), h1 (2 * i + 1) (by omega), h1 (2 * i + 2) (by omega)]
        simp [setAt, show 2 * i + 1 ≠ i by omega, show 2 * i + 2 ≠ i by omega]
      · exact h2 i (by omega)

theorem dom_propagate (D : Nat) (t : Nat → δ) : Dom D (propagate (2 ^ D - 1) t) := by
  intro i hi
  have h := (propagate_spec (2 ^ D - 1) t).2 i hi
  have := (cmax_le (a := propagate (2 ^ D - 1) t (2 * i + 1))
    (b := propagate (2 ^ D - 1) t (2 * i + 2))).mp (le_refl _)
  rw [← h] at this
  exact this

/-! ### Histories of depths -/

/-- Operations of the sampler on the tree. -/
inductive Op (δ : Type) where
  | setDepth (depth : δ) (index : Nat)
  | update

def step (t : Tree α δ) : Op δ → Option (Tree α δ)
  | .setDepth d i => setSampleDepth t d i
  | .update => some (updateTree t)

def run : Tree α δ → List (Op δ) → Option (Tree α δ)
  | t, [] => some t
  | t, o :: os =>
    match step t o with
    | none => none
    | some t' => run t' os

/-- Depths are set at leaves only. -/
def OnLeaves (D : Nat) : List (Op δ) → Prop
  | [] => True
  | .setDepth _ i :: os => 2 ^ D - 1 ≤ i ∧ OnLeaves D os
  | .update :: os => OnLeaves D os

/-- Spec: the depth of a leaf after a history. -/
def leafAfter (i : Nat) : δ → List (Op δ) → δ
  | d, [] => d
  | d, .setDepth e j :: os => leafAfter i (if i = j then e else d) os
  | d, .update :: os => leafAfter i d os

theorem run_inv (D : Nat) : ∀ (os : List (Op δ)) (t t' : Tree α δ), t.firstLeaf = 2 ^ D - 1 →
    t.numLevels = D + 1 → Dom D t.depths → OnLeaves D os → run t os = some t' →
    t'.firstLeaf = 2 ^ D - 1 ∧ t'.numLevels = D + 1 ∧ Dom D t'.depths ∧
    root t' = root t ∧ ∀ i, 2 ^ D - 1 ≤ i → t'.depths i = leafAfter i (t.depths i) os := by
  intro os
  induction os with
  | nil =>
    intro t t' h1 h2 h3 _ hr
    simp only [run, Option.some.injEq] at hr
    subst hr
    exact ⟨h1, h2, h3, rfl, fun i _ => rfl⟩
  | cons o os ih =>
    intro t t' h1 h2 h3 hl hr
    cases o with
    | setDepth d i =>
      simp only [run, step, setSampleDepth] at hr
      by_cases hc : d ≤ t.depths i
      · rw [if_pos hc] at hr
        have hdom : Dom D (setAt t.depths i d) := by
          intro j hj
          obtain ⟨a, b⟩ := h3 j hj
          have hij : j ≠ i := by have := hl.1; omega
          have low : ∀ k, setAt t.depths i d k ≤ t.depths k := by
            intro k
            unfold setAt
            split
            · rename_i hk; rw [hk]; exact hc
            · exact le_refl _
          have ej : setAt t.depths i d j = t.depths j := by simp [setAt, hij]
          rw [ej]
          exact ⟨le_trans (low _) a, le_trans (low _) b⟩
        obtain ⟨a, b, c, e, f⟩ := ih
          { t with depths := setAt t.depths i d, needsUpdate := true } t' h1 h2 hdom hl.2 hr
        refine ⟨a, b, c, e, fun j hj => ?_⟩
        rw [f j hj]
        simp only [leafAfter, setAt]
      · rw [if_neg hc] at hr; simp at hr
    | update =>
      simp only [run, step] at hr
      obtain ⟨u1, u2, u3, u4, u5⟩ : (updateTree t).firstLeaf = 2 ^ D - 1 ∧
          (updateTree t).numLevels = D + 1 ∧ Dom D (updateTree t).depths ∧
          root (updateTree t) = root t ∧
          ∀ i, 2 ^ D - 1 ≤ i → (updateTree t).depths i = t.depths i := by
        unfold updateTree
        split
        · refine ⟨h1, h2, ?_, rfl, ?_⟩
          · simp only [propagateDepths, h2, Nat.add_sub_cancel]
            exact dom_propagate D _
          · intro i hi
            simp only [propagateDepths, h2, Nat.add_sub_cancel]
            exact (propagate_spec _ _).1 i hi
        · exact ⟨h1, h2, h3, rfl, fun _ _ => rfl⟩
      obtain ⟨a, b, c, e, f⟩ := ih _ t' u1 u2 u3 hl hr
      refine ⟨a, b, c, by rw [e, u4], fun j hj => ?_⟩
      rw [f j hj, u5 j hj]
      rfl

end

/-! ## Leaf indices -/

/-- The bits of two numbers interlaced, the lowest bit being of the first. -/
def mix : Nat → Nat → Nat → Nat
  | 0, _, _ => 0
  | n + 1, u, v => u % 2 + 2 * mix n v (u / 2)

theorem mix_zero (n : Nat) : mix n 0 0 = 0 := by
  induction n with
  | zero => rfl
  | succ n ih => simp [mix, ih]

theorem mix_lt : ∀ (n u v : Nat), mix n u v < 2 ^ n := by
  intro n
  induction n with
  | zero => intro u v; simp [mix]
  | succ n ih =>
    intro u v
    have := ih v (u / 2)
    simp only [mix, pow_succ]
    omega

theorem or_lo (a b : Nat) (hb : b < 2) : 2 * a ||| b = 2 * a + b := by
  have : 2 * a = a <<< 1 := by rw [Nat.shiftLeft_eq]; omega
  rw [this, ← Nat.shiftLeft_add_eq_or_of_lt (by omega)]

theorem mix_or (n u v : Nat) : mix (n + 2) u v =
    (u &&& 1) ||| (v &&& 1) <<< 1 ||| (mix n (u / 2) (v / 2)) <<< 2 := by
  have e1 : u &&& 1 = u % 2 := Nat.and_one_is_mod u
  have e2 : v &&& 1 = v % 2 := Nat.and_one_is_mod v
  rw [e1, e2]
  generalize hm : mix n (u / 2) (v / 2) = m
  have e3 : mix (n + 2) u v = u % 2 + 2 * (v % 2 + 2 * m) := by
    rw [← hm]; rfl
  rw [e3, Nat.or_assoc]
  have e4 : (v % 2) <<< 1 ||| m <<< 2 = 2 * (v % 2 + 2 * m) := by
    have : m <<< 2 = (m <<< 1) <<< 1 := by rw [← Nat.shiftLeft_add]
    rw [this, ← Nat.shiftLeft_or_distrib, Nat.or_comm]
    have h := or_lo m (v % 2) (by omega)
    have e : m <<< 1 = 2 * m := by rw [Nat.shiftLeft_eq]; omega
    rw [e, h, Nat.shiftLeft_eq]
    omega
  rw [e4, Nat.or_comm, or_lo _ _ (by omega)]
  omega

theorem interlace_eq : ∀ (fuel index u v bit n : Nat), u < 2 ^ fuel → v < 2 ^ fuel →
    u < 2 ^ n → v < 2 ^ n →
    interlace fuel index u v bit = index ||| (mix (2 * n) u v) <<< bit := by
  intro fuel
  induction fuel with
  | zero =>
    intro index u v bit n hu hv _ _
    have : u = 0 := by simpa using hu
    have : v = 0 := by simpa using hv
    subst u; subst v
    simp [interlace, mix_zero]
  | succ fuel ih =>
    intro index u v bit n hu hv hu' hv'
    simp only [interlace]
    by_cases h : u ≠ 0 ∨ v ≠ 0
    · rw [if_pos h]
      cases n with
      | zero =>
        exfalso
        have : u = 0 := by simpa using hu'
        have : v = 0 := by simpa using hv'
        omega
      | succ n =>
        have e1 : u >>> 1 = u / 2 := by rw [Nat.shiftRight_eq_div_pow, Nat.pow_one]
        have e2 : v >>> 1 = v / 2 := by rw [Nat.shiftRight_eq_div_pow, Nat.pow_one]
        rw [e1, e2, ih _ _ _ _ n (by rw [pow_succ] at hu; omega) (by rw [pow_succ] at hv; omega)
          (by rw [pow_succ] at hu'; omega) (by rw [pow_succ] at hv'; omega)]
        rw [show 2 * (n + 1) = 2 * n + 2 by ring, mix_or, Nat.shiftLeft_or_distrib,
          Nat.shiftLeft_or_distrib]
        rw [← Nat.shiftLeft_add, ← Nat.shiftLeft_add]
        rw [Nat.or_assoc, Nat.add_comm 1 bit, Nat.add_comm 2 bit]
    · rw [if_neg h]
      have : u = 0 := by omega
      have : v = 0 := by omega
      subst u; subst v
      simp [mix_zero]

theorem mix_succ_of_lt : ∀ (n u v : Nat), u < 2 ^ ((n + 1) / 2) → v < 2 ^ (n / 2) →
    mix (n + 1) u v = mix n u v := by
  intro n
  induction n with
  | zero =>
    intro u v hu hv
    simp at hu hv
    subst hu; subst hv
    rfl
  | succ n ih =>
    intro u v hu hv
    rw [mix, ih v (u / 2) hv, mix]
    rw [show (n + 1 + 1) / 2 = n / 2 + 1 by omega, pow_succ] at hu
    omega

theorem mix_of_le (D : Nat) {u v : Nat} (hu : u < 2 ^ ((D + 1) / 2)) (hv : v < 2 ^ (D / 2)) :
    ∀ m, mix (D + m) u v = mix D u v := by
  intro m
  induction m with
  | zero => rfl
  | succ m ih =>
    rw [← Nat.add_assoc, mix_succ_of_lt, ih]
    · exact lt_of_lt_of_le hu (Nat.pow_le_pow_right (by omega) (by omega))
    · exact lt_of_lt_of_le hv (Nat.pow_le_pow_right (by omega) (by omega))

/-- `treeIndexForPoint` is the first leaf plus the interlaced bits. -/
theorem treeIndex_eq (D : Nat) (sx : Bool) (x y : Nat)
    (hx : x < 2 ^ ((D + (if sx then 1 else 0)) / 2))
    (hy : y < 2 ^ ((D + (if sx then 0 else 1)) / 2)) :
    treeIndexForPoint (D + 1) sx x y =
      some (2 ^ D - 1 +
        (if sx != (D % 2 == 1) then mix D y x else mix D x y)) := by
  have hpos : 0 < 2 ^ D := Nat.two_pow_pos D
  have hxD : x < 2 ^ (D + 1) := lt_of_lt_of_le hx (Nat.pow_le_pow_right (by omega) (by
    cases sx <;> simp <;> omega))
  have hcond : 0 < D + 1 ∧ x < 2 ^ (D + 1) ∧ y < 2 ^ ((D + 1 - (if sx then 1 else 0)) / 2) := by
    refine ⟨by omega, hxD, ?_⟩
    cases sx <;> simpa using hy
  unfold treeIndexForPoint
  rw [if_pos hcond]
  simp only [Nat.add_sub_cancel]
  have hlarge : ∀ a b : Nat, a < 2 ^ (a + b + 1) := fun a b =>
    lt_of_lt_of_le Nat.lt_two_pow_self (Nat.pow_le_pow_right (by omega) (by omega))
  have core : ∀ u v : Nat, u < 2 ^ ((D + 1) / 2) → v < 2 ^ (D / 2) → ∀ f, u < 2 ^ f → v < 2 ^ f →
      interlace f (2 ^ D) u v 0 - 1 = 2 ^ D - 1 + mix D u v := by
    intro u v hu hv f hf1 hf2
    rw [interlace_eq f _ u v 0 ((D + 1) / 2) hf1 hf2 hu
      (lt_of_lt_of_le hv (Nat.pow_le_pow_right (by omega) (by omega)))]
    obtain ⟨m, hm⟩ : ∃ m, 2 * ((D + 1) / 2) = D + m := ⟨2 * ((D + 1) / 2) - D, by omega⟩
    rw [hm, mix_of_le D hu hv m, Nat.shiftLeft_zero]
    have hlt := mix_lt D u v
    have h1 : (1 : Nat) <<< D = 2 ^ D := by rw [Nat.shiftLeft_eq, Nat.one_mul]
    rw [← h1, ← Nat.shiftLeft_add_eq_or_of_lt hlt, h1]
    omega
  have f1 := hlarge x y
  have f2 : y < 2 ^ (x + y + 1) := by rw [Nat.add_comm x y]; exact hlarge y x
  rcases Nat.mod_two_eq_zero_or_one D with hD | hD
  · have hD1 : (D + 1) % 2 = 1 := by omega
    have ed : (D + 1) / 2 = D / 2 := by omega
    cases sx
    · simp only [hD, hD1, Bool.false_eq_true, if_false] at *
      simp
      rw [core x y (by rw [ed]; simpa using hx) (by rw [← ed]; simpa using hy) _ f1 f2]
    · simp only [hD, hD1, if_true, Bool.false_eq_true, if_false] at *
      simp
      rw [core y x (by rw [ed]; simpa using hy) (by rw [← ed]; simpa using hx) _ f2 f1]
  · have hD1 : (D + 1) % 2 = 0 := by omega
    cases sx
    · simp only [hD, hD1, Bool.false_eq_true, if_false] at *
      simp
      rw [core y x (by simpa using hy) (by simpa using hx) _ f2 f1]
    · simp only [hD, hD1, if_true, Bool.false_eq_true, if_false] at *
      simp
      rw [core x y (by simpa using hx) (by simpa using hy) _ f1 f2]

/-! ## Cells -/

/-- libs/core/occlusion.cpp:200,206: the middle. -/
def avg (b a : ℚ) : ℚ := 1 / 2 * (b + a)

theorem avg_between : Between avg := by
  intro a b h
  unfold avg
  constructor <;> linarith

/-- The last split of a leaf. -/
theorem leafBox_last (h : Nat) : ∀ (n : Node ℚ) (k b : Nat), k < 2 ^ h → b < 2 →
    leafBox avg (h + 1) n (2 * k + b) =
      if b = 0 then (halves avg (leafBox avg h n k)).1 else (halves avg (leafBox avg h n k)).2 := by
  induction h with
  | zero =>
    intro n k b hk hb
    have hk0 : k = 0 := by simpa using hk
    subst hk0
    have : b = 0 ∨ b = 1 := by omega
    rcases this with rfl | rfl <;> simp [leafBox]
  | succ h ih =>
    intro n k b hk hb
    have e : 2 ^ (h + 1) = 2 * 2 ^ h := by rw [pow_succ]; ring
    rw [leafBox]
    by_cases hk' : k < 2 ^ h
    · rw [if_pos (by omega), ih _ k b hk' hb]
      simp only [leafBox, if_pos hk']
    · rw [if_neg (by omega)]
      have : 2 * k + b - 2 ^ (h + 1) = 2 * (k - 2 ^ h) + b := by omega
      rw [this, ih _ (k - 2 ^ h) b (by omega) hb]
      simp only [leafBox, if_neg hk']

/-- The position of the leaf for the coordinates `(x, y)` among the leaves. -/
def pos (D : Nat) (sx : Bool) (x y : Nat) : Nat :=
  if sx != (D % 2 == 1) then mix D y x else mix D x y

theorem pos_lt (D : Nat) (sx : Bool) (x y : Nat) : pos D sx x y < 2 ^ D := by
  unfold pos; split <;> exact mix_lt _ _ _

/-- How many times the x direction is split in `D` splits. -/
def splitsX (D : Nat) (sx : Bool) : Nat := (D + (if sx then 1 else 0)) / 2
def splitsY (D : Nat) (sx : Bool) : Nat := (D + (if sx then 0 else 1)) / 2

/-- The box of leaf `pos D sx x y` is the cell `(x, y)` of the grid. -/
theorem leafBox_cell (D : Nat) : ∀ (sx : Bool) (x y idx : Nat) (X Y wx wy : ℚ),
    x < 2 ^ splitsX D sx → y < 2 ^ splitsY D sx →
    ∃ i, leafBox avg D
      { minX := X, minY := Y, maxX := X + 2 ^ splitsX D sx * wx, maxY := Y + 2 ^ splitsY D sx * wy,
        index := idx, splitInX := sx } (pos D sx x y) =
      { minX := X + x * wx, minY := Y + y * wy, maxX := X + (x + 1) * wx, maxY := Y + (y + 1) * wy,
        index := i, splitInX := sx != (D % 2 == 1) } := by
  induction D with
  | zero =>
    intro sx x y idx X Y wx wy hx hy
    have h1 : splitsX 0 sx = 0 := by cases sx <;> rfl
    have h2 : splitsY 0 sx = 0 := by cases sx <;> rfl
    rw [h1] at hx
    rw [h2] at hy
    have hx0 : x = 0 := by simpa using hx
    have hy0 : y = 0 := by simpa using hy
    subst hx0; subst hy0
    rw [h1, h2]
    exact ⟨idx, by simp [leafBox]⟩
  | succ D ih =>
    intro sx x y idx X Y wx wy hx hy
    have hsplit : (sx != (D % 2 == 1)) = true ∧ splitsX (D + 1) sx = splitsX D sx + 1 ∧
          splitsY (D + 1) sx = splitsY D sx ∧ (sx != ((D + 1) % 2 == 1)) = false ∨
        (sx != (D % 2 == 1)) = false ∧ splitsX (D + 1) sx = splitsX D sx ∧
          splitsY (D + 1) sx = splitsY D sx + 1 ∧ (sx != ((D + 1) % 2 == 1)) = true := by
      rcases Nat.mod_two_eq_zero_or_one D with hD | hD
      · have hD' : (D + 1) % 2 = 1 := by omega
        cases sx
        · right
          refine ⟨by simp [hD], ?_, ?_, by simp [hD']⟩ <;> simp [splitsX, splitsY] <;> omega
        · left
          refine ⟨by simp [hD], ?_, ?_, by simp [hD']⟩ <;> simp [splitsX, splitsY] <;> omega
      · have hD' : (D + 1) % 2 = 0 := by omega
        cases sx
        · left
          refine ⟨by simp [hD], ?_, ?_, by simp [hD']⟩ <;> simp [splitsX, splitsY] <;> omega
        · right
          refine ⟨by simp [hD], ?_, ?_, by simp [hD']⟩ <;> simp [splitsX, splitsY] <;> omega
    rcases hsplit with ⟨s1, s2, s3, s4⟩ | ⟨s1, s2, s3, s4⟩
    · -- the last split is in x
      have hp : pos (D + 1) sx x y = 2 * pos D sx (x / 2) y + x % 2 := by
        unfold pos
        rw [s1, s4]
        simp only [Bool.false_eq_true, if_false, if_true, mix]
        omega
      have hx' : x / 2 < 2 ^ splitsX D sx := by rw [s2, pow_succ] at hx; omega
      obtain ⟨i, hi⟩ := ih sx (x / 2) y idx X Y (2 * wx) wy hx' (by rw [s3] at hy; exact hy)
      rw [hp, leafBox_last D _ _ _ (pos_lt _ _ _ _) (by omega), s2, s3]
      have e : X + 2 ^ (splitsX D sx + 1) * wx = X + 2 ^ splitsX D sx * (2 * wx) := by
        rw [pow_succ]; ring
      rw [e, hi, s1, s4]
      have hxq : (x : ℚ) = 2 * ((x / 2 : Nat) : ℚ) + ((x % 2 : Nat) : ℚ) := by
        have := Nat.div_add_mod x 2
        exact_mod_cast this.symm
      have hb : x % 2 = 0 ∨ x % 2 = 1 := by omega
      rcases hb with hb | hb
      · rw [hb] at hxq ⊢
        refine ⟨i * 2 + 1, ?_⟩
        simp only [if_true, halves, avg, Bool.not_true, Node.mk.injEq, and_true, true_and]
        rw [hxq]
        push_cast
        constructor <;> ring
      · rw [hb] at hxq ⊢
        refine ⟨i * 2 + 2, ?_⟩
        simp only [one_ne_zero, if_false, if_true, halves, avg, Bool.not_true, Node.mk.injEq,
          and_true, true_and]
        rw [hxq]
        push_cast
        constructor <;> ring
    · have hp : pos (D + 1) sx x y = 2 * pos D sx x (y / 2) + y % 2 := by
        unfold pos
        rw [s1, s4]
        simp only [Bool.false_eq_true, if_false, if_true, mix]
        omega
      have hy' : y / 2 < 2 ^ splitsY D sx := by rw [s3, pow_succ] at hy; omega
      obtain ⟨i, hi⟩ := ih sx x (y / 2) idx X Y wx (2 * wy) (by rw [s2] at hx; exact hx) hy'
      rw [hp, leafBox_last D _ _ _ (pos_lt _ _ _ _) (by omega), s2, s3]
      have e : Y + 2 ^ (splitsY D sx + 1) * wy = Y + 2 ^ splitsY D sx * (2 * wy) := by
        rw [pow_succ]; ring
      rw [e, hi, s1, s4]
      have hyq : (y : ℚ) = 2 * ((y / 2 : Nat) : ℚ) + ((y % 2 : Nat) : ℚ) := by
        have := Nat.div_add_mod y 2
        exact_mod_cast this.symm
      have hb : y % 2 = 0 ∨ y % 2 = 1 := by omega
      rcases hb with hb | hb
      · rw [hb] at hyq ⊢
        refine ⟨i * 2 + 1, ?_⟩
        simp only [if_true, halves, avg, Bool.false_eq_true, if_false, Bool.not_false,
          Node.mk.injEq, and_true, true_and]
        rw [hyq]
        push_cast
        constructor <;> ring
      · rw [hb] at hyq ⊢
        refine ⟨i * 2 + 2, ?_⟩
        simp only [one_ne_zero, if_false, halves, avg, Bool.false_eq_true, Bool.not_false,
          Node.mk.injEq, and_true, true_and]
        rw [hyq]
        push_cast
        constructor <;> ring

/-- Different coordinates have different leaves. -/
theorem pos_inj {D : Nat} {sx : Bool} {x y x' y' : Nat}
    (hx : x < 2 ^ splitsX D sx) (hy : y < 2 ^ splitsY D sx)
    (hx' : x' < 2 ^ splitsX D sx) (hy' : y' < 2 ^ splitsY D sx)
    (h : pos D sx x y = pos D sx x' y') : x = x' ∧ y = y' := by
  obtain ⟨i, hi⟩ := leafBox_cell D sx x y 0 0 0 1 1 hx hy
  obtain ⟨j, hj⟩ := leafBox_cell D sx x' y' 0 0 0 1 1 hx' hy'
  rw [h, hj] at hi
  simp only [Node.mk.injEq] at hi
  have h1 : (x' : ℚ) = x := by have := hi.1; linarith
  have h2 : (y' : ℚ) = y := by have := hi.2.1; linarith
  exact ⟨by exact_mod_cast h1.symm, by exact_mod_cast h2.symm⟩

/-! ## Setting up -/

theorem adjust_spec (dx0 dy0 : Nat) :
    let d := adjustDepths dx0 dy0
    dx0 ≤ d.1 ∧ dy0 ≤ d.2 ∧ d.1 = splitsX (d.1 + d.2) (decide (d.1 ≥ d.2)) ∧
      d.2 = splitsY (d.1 + d.2) (decide (d.1 ≥ d.2)) := by
  unfold adjustDepths
  by_cases h1 : dx0 < dy0
  · have hn : ¬ (dy0 ≤ dy0 - 1) := by omega
    simp only [h1, if_true, ge_iff_le, hn, decide_false, splitsX, splitsY]
    simp
    omega
  · by_cases h2 : dy0 < dx0
    · have hn : dx0 - 1 ≤ dx0 := by omega
      simp only [h1, h2, if_true, if_false, ge_iff_le, hn, decide_true, splitsX, splitsY]
      simp
      omega
    · have : dx0 = dy0 := by omega
      subst this
      simp [splitsX, splitsY]
      omega

theorem placeSamples_spec {δ : Type} [LinearOrder δ] (zero fltMax : δ) (L : Nat) (sx : Bool)
    (fl total : Nat) (f : Nat × Nat → Nat) : ∀ (ps : List (Nat × Nat)) (d : Nat → δ), ps.Nodup →
    (∀ p ∈ ps, treeIndexForPoint L sx p.1 p.2 = some (f p) ∧ fl ≤ f p ∧ f p < total ∧
      d (f p) = zero) →
    (∀ p ∈ ps, ∀ q ∈ ps, f p = f q → p = q) →
    ∃ d', placeSamples zero fltMax L sx fl total ps d = some (ps.map f, d') ∧
      ∀ i, d' i = if i ∈ ps.map f then fltMax else d i := by
  intro ps
  induction ps with
  | nil => intro d _ _ _; exact ⟨d, rfl, fun i => by simp⟩
  | cons p ps ih =>
    intro d hnd h hinj
    obtain ⟨x, y⟩ := p
    obtain ⟨h1, h2, h3, h4⟩ := h (x, y) (by simp)
    have hnd' := List.nodup_cons.mp hnd
    have hnot : f (x, y) ∉ ps.map f := by
      intro hm
      obtain ⟨q, hq, e⟩ := List.mem_map.mp hm
      have := hinj q (by simp [hq]) (x, y) (by simp) e
      rw [this] at hq
      exact hnd'.1 hq
    obtain ⟨d', g1, g2⟩ := ih (setAt d (f (x, y)) fltMax) hnd'.2 (by
        intro q hq
        obtain ⟨a, b, c, e⟩ := h q (by simp [hq])
        refine ⟨a, b, c, ?_⟩
        have : f q ≠ f (x, y) := fun he => hnot (he ▸ List.mem_map_of_mem hq)
        simp [setAt, this, e])
      (fun a ha b hb => hinj a (by simp [ha]) b (by simp [hb]))
    refine ⟨d', ?_, ?_⟩
    · simp only [placeSamples, h1, h2, h3, h4, and_self, if_true, g1, List.map_cons]
    · intro i
      rw [g2 i]
      simp only [List.map_cons, List.mem_cons]
      by_cases hi : i = f (x, y)
      · simp [hi, setAt]
      · have e : setAt d (f (x, y)) fltMax i = d i := by simp [setAt, hi]
        rw [e]
        simp only [hi, false_or]

theorem samples_nodup (nx ny : Nat) : (samples nx ny).Nodup := by
  unfold samples
  rw [List.nodup_flatMap]
  refine ⟨fun y _ => ?_, ?_⟩
  · apply List.Nodup.map
    · intro a b h; simpa using h
    · exact List.nodup_range
  · apply List.Pairwise.imp _ List.nodup_range
    intro a b hab
    intro p hp hq
    simp only [List.mem_map] at hp hq
    obtain ⟨_, _, rfl⟩ := hp
    obtain ⟨_, _, h⟩ := hq
    simp at h
    exact hab h.2.symm

theorem mem_samples {nx ny : Nat} {p : Nat × Nat} : p ∈ samples nx ny ↔ p.1 < nx ∧ p.2 < ny := by
  unfold samples
  simp only [List.mem_flatMap, List.mem_range, List.mem_map]
  constructor
  · rintro ⟨y, hy, x, hx, rfl⟩; exact ⟨hx, hy⟩
  · rintro ⟨h1, h2⟩; exact ⟨p.2, h2, p.1, h1, rfl⟩

/-- The tree after `setupTree`. -/
theorem setup_spec {δ : Type} [LinearOrder δ] (zero fltMax : δ) (X Y : ℚ) (w h xs ys dx0 dy0 : Nat)
    (hw : 0 < w) (hh : 0 < h) (hxs : 0 < xs) (hys : 0 < ys) (hx : w * xs ≤ 2 ^ dx0)
    (hy : h * ys ≤ 2 ^ dy0) :
    ∃ (D : Nat) (sx : Bool) (leaf : Nat × Nat → Nat) (t : Tree ℚ δ),
      setupTree zero fltMax X Y w h xs ys dx0 dy0 =
        some ((samples (w * xs) (h * ys)).map leaf, t) ∧
      (∀ p ∈ samples (w * xs) (h * ys), ∀ q ∈ samples (w * xs) (h * ys), leaf p = leaf q → p = q) ∧
      t.firstLeaf = 2 ^ D - 1 ∧ t.numLevels = D + 1 ∧ Dom D t.depths ∧
      (t.minX ≤ t.maxX ∧ t.minY ≤ t.maxY) ∧
      (∀ i, 2 ^ D - 1 ≤ i → t.depths i =
        if i ∈ (samples (w * xs) (h * ys)).map leaf then fltMax else zero) ∧
      (∀ p ∈ samples (w * xs) (h * ys), ∃ k, k < 2 ^ D ∧ leaf p = 2 ^ D - 1 + k ∧
        ∃ i, leafBox avg D (root t) k =
          { minX := X + p.1 / xs, minY := Y + p.2 / ys, maxX := X + (p.1 + 1) / xs,
            maxY := Y + (p.2 + 1) / ys, index := i, splitInX := sx }) := by
  obtain ⟨a1, a2, a3, a4⟩ := adjust_spec dx0 dy0
  generalize hd : adjustDepths dx0 dy0 = d at *
  obtain ⟨dx, dy⟩ := d
  simp only at a1 a2 a3 a4
  generalize hsx : decide (dx ≥ dy) = sx at *
  have hX : ∀ p ∈ samples (w * xs) (h * ys), p.1 < 2 ^ splitsX (dx + dy) sx ∧
      p.2 < 2 ^ splitsY (dx + dy) sx := by
    intro p hp
    obtain ⟨h1, h2⟩ := mem_samples.mp hp
    rw [← a3, ← a4]
    exact ⟨lt_of_lt_of_le h1 (le_trans hx (Nat.pow_le_pow_right (by omega) a1)),
      lt_of_lt_of_le h2 (le_trans hy (Nat.pow_le_pow_right (by omega) a2))⟩
  have hpw : 0 < 2 ^ (dx + dy) := Nat.two_pow_pos _
  obtain ⟨d', g1, g2⟩ := placeSamples_spec zero fltMax (dx + dy + 1) sx (2 ^ (dx + dy) - 1)
    (2 * 2 ^ (dx + dy) - 1) (fun p => 2 ^ (dx + dy) - 1 + pos (dx + dy) sx p.1 p.2)
    (samples (w * xs) (h * ys)) (fun _ => zero) (samples_nodup _ _)
    (by
      intro p hp
      obtain ⟨h1, h2⟩ := hX p hp
      have := pos_lt (dx + dy) sx p.1 p.2
      exact ⟨treeIndex_eq _ _ _ _ h1 h2, by omega, by omega, rfl⟩)
    (by
      intro p hp q hq e
      obtain ⟨h1, h2⟩ := hX p hp
      obtain ⟨h3, h4⟩ := hX q hq
      have := pos_inj h1 h2 h3 h4 (by omega)
      exact Prod.ext this.1 this.2)
  refine ⟨dx + dy, sx != ((dx + dy) % 2 == 1),
    fun p => 2 ^ (dx + dy) - 1 + pos (dx + dy) sx p.1 p.2, propagateDepths
      { minX := X, minY := Y, maxX := X + w * ((2 : ℚ) ^ dx / (w * xs : Nat)),
        maxY := Y + h * ((2 : ℚ) ^ dy / (h * ys : Nat)), depths := d',
        firstLeaf := 2 ^ (dx + dy) - 1, numLevels := dx + dy + 1, splitXFirst := sx,
        needsUpdate := false }, ?_, ?_⟩
  · simp only [setupTree, hd, hsx, g1]
  · have hwq : (w : ℚ) ≠ 0 := by exact_mod_cast (by omega : w ≠ 0)
    have hhq : (h : ℚ) ≠ 0 := by exact_mod_cast (by omega : h ≠ 0)
    have hxq : (0 : ℚ) < xs := by exact_mod_cast hxs
    have hyq : (0 : ℚ) < ys := by exact_mod_cast hys
    have ex : (w : ℚ) * ((2 : ℚ) ^ dx / (w * xs : Nat)) = 2 ^ dx * (1 / xs) := by
      push_cast; field_simp
    have ey : (h : ℚ) * ((2 : ℚ) ^ dy / (h * ys : Nat)) = 2 ^ dy * (1 / ys) := by
      push_cast; field_simp
    refine ⟨?_, rfl, rfl, dom_propagate _ _, ?_, ?_, ?_⟩
    · intro p hp q hq e
      obtain ⟨h1, h2⟩ := hX p hp
      obtain ⟨h3, h4⟩ := hX q hq
      have := pos_inj h1 h2 h3 h4 (by simp only at e; omega)
      exact Prod.ext this.1 this.2
    · simp only [propagateDepths, ex, ey]
      constructor
      · have : (0 : ℚ) ≤ 2 ^ dx * (1 / xs) :=
          mul_nonneg (pow_nonneg (by norm_num) _) (one_div_nonneg.mpr (le_of_lt hxq))
        linarith
      · have : (0 : ℚ) ≤ 2 ^ dy * (1 / ys) :=
          mul_nonneg (pow_nonneg (by norm_num) _) (one_div_nonneg.mpr (le_of_lt hyq))
        linarith
    · intro i hi
      have := (propagate_spec (2 ^ (dx + dy) - 1) d').1 i hi
      simp only [propagateDepths, Nat.add_sub_cancel]
      rw [this, g2 i]
    · intro p hp
      obtain ⟨h1, h2⟩ := hX p hp
      refine ⟨pos (dx + dy) sx p.1 p.2, pos_lt _ _ _ _, rfl, ?_⟩
      obtain ⟨i, hi⟩ := leafBox_cell (dx + dy) sx p.1 p.2 0 X Y (1 / xs) (1 / ys) h1 h2
      rw [← a3, ← a4] at hi
      refine ⟨i, ?_⟩
      simp only [root, propagateDepths, ex, ey]
      rw [hi]
      simp only [Node.mk.injEq, and_true]
      refine ⟨?_, ?_, ?_, ?_⟩ <;> ring

/-- **C29.**  For every size of the sampled region and number of samples per
pixel, setting up the tree meets no assertion and gives distinct samples
distinct leaves.  (`hx`, `hy` say that `lceil(log2(n))` is at least the base 2
logarithm of `n`.) -/
theorem C29_distinct {δ : Type} [LinearOrder δ] (zero fltMax : δ) (X Y : ℚ)
    (w h xs ys dx0 dy0 : Nat) (hw : 0 < w) (hh : 0 < h) (hxs : 0 < xs) (hys : 0 < ys)
    (hx : w * xs ≤ 2 ^ dx0) (hy : h * ys ≤ 2 ^ dy0) :
    ∃ leaves t, setupTree zero fltMax X Y w h xs ys dx0 dy0 = some (leaves, t) ∧
      leaves.length = (w * xs) * (h * ys) ∧ leaves.Nodup := by
  obtain ⟨D, sx, leaf, t, h1, h2, _⟩ := setup_spec zero fltMax X Y w h xs ys dx0 dy0 hw hh hxs hys
    hx hy
  refine ⟨_, t, h1, ?_, ?_⟩
  · simp [samples, Nat.mul_comm]
  · exact List.Nodup.map_on h2 (samples_nodup _ _)

/-- The centre of a cell, with the depth of the tree and the leaf below the root
reached by always taking the half that contains a point. -/
def descend : Nat → ℚ → ℚ → Node ℚ → Node ℚ
  | 0, _, _, n => n
  | h + 1, x, y, n =>
    if n.splitInX then
      if x < avg n.maxX n.minX then descend h x y (halves avg n).1
      else descend h x y (halves avg n).2
    else
      if y < avg n.maxY n.minY then descend h x y (halves avg n).1
      else descend h x y (halves avg n).2

theorem descend_eq : ∀ (h : Nat) (n : Node ℚ) (k : Nat) (x y : ℚ), Ordered n → k < 2 ^ h →
    (leafBox avg h n k).minX < x → x < (leafBox avg h n k).maxX →
    (leafBox avg h n k).minY < y → y < (leafBox avg h n k).maxY →
    descend h x y n = leafBox avg h n k := by
  intro h
  induction h with
  | zero => intros; rfl
  | succ h ih =>
    intro n k x y ho hk h1 h2 h3 h4
    obtain ⟨⟨o1, _⟩, ⟨o2, _⟩⟩ := halves_within avg_between ho
    simp only [leafBox] at h1 h2 h3 h4 ⊢
    by_cases hk' : k < 2 ^ h
    · rw [if_pos hk'] at h1 h2 h3 h4 ⊢
      obtain ⟨_, b⟩ := leafBox_within avg_between h (halves avg n).1 k o1
      have hd := ih _ k x y o1 hk' h1 h2 h3 h4
      unfold descend
      by_cases hs : n.splitInX = true
      · rw [if_pos hs, if_pos, hd]
        have e : (halves avg n).1.maxX = avg n.maxX n.minX := by simp [halves, hs]
        rw [← e]
        exact lt_of_lt_of_le h2 b.2.1
      · rw [if_neg hs, if_pos, hd]
        have e : (halves avg n).1.maxY = avg n.maxY n.minY := by simp [halves, hs]
        rw [← e]
        exact lt_of_lt_of_le h4 b.2.2.2
    · rw [if_neg hk'] at h1 h2 h3 h4 ⊢
      obtain ⟨_, b⟩ := leafBox_within avg_between h (halves avg n).2 (k - 2 ^ h) o2
      have hd := ih _ (k - 2 ^ h) x y o2 (by rw [pow_succ] at hk; omega) h1 h2 h3 h4
      unfold descend
      by_cases hs : n.splitInX = true
      · rw [if_pos hs, if_neg, hd]
        have e : (halves avg n).2.minX = avg n.maxX n.minX := by simp [halves, hs]
        rw [← e]
        exact not_lt.mpr (le_of_lt (lt_of_le_of_lt b.1 h1))
      · rw [if_neg hs, if_neg, hd]
        have e : (halves avg n).2.minY = avg n.maxY n.minY := by simp [halves, hs]
        rw [← e]
        exact not_lt.mpr (le_of_lt (lt_of_le_of_lt b.2.2.1 h3))

/-- **C29.**  The leaf given to the sample with subpixel coordinates `(x, y)` is
the one reached from the root of the tree by following any point inside the
cell of that sample on the screen. -/
theorem C29_place {δ : Type} [LinearOrder δ] (zero fltMax : δ) (X Y : ℚ)
    (w h xs ys dx0 dy0 : Nat) (hw : 0 < w) (hh : 0 < h) (hxs : 0 < xs) (hys : 0 < ys)
    (hx : w * xs ≤ 2 ^ dx0) (hy : h * ys ≤ 2 ^ dy0) :
    ∃ leaf t D, setupTree zero fltMax X Y w h xs ys dx0 dy0 =
        some ((samples (w * xs) (h * ys)).map leaf, t) ∧
      ∀ x y, x < w * xs → y < h * ys → ∀ px py : ℚ,
        X + x / xs < px → px < X + (x + 1) / xs → Y + y / ys < py → py < Y + (y + 1) / ys →
        (descend D px py (root t)).index = leaf (x, y) := by
  obtain ⟨D, sx, leaf, t, h1, _, _, _, _, h6, _, h8⟩ :=
    setup_spec zero fltMax X Y w h xs ys dx0 dy0 hw hh hxs hys hx hy
  refine ⟨leaf, t, D, h1, ?_⟩
  intro x y hx' hy' px py p1 p2 p3 p4
  obtain ⟨k, hk, e1, i, e2⟩ := h8 (x, y) (mem_samples.mpr ⟨hx', hy'⟩)
  rw [descend_eq D (root t) k px py h6 hk (by rw [e2]; exact p1) (by rw [e2]; exact p2)
    (by rw [e2]; exact p3) (by rw [e2]; exact p4), leafBox_index avg D _ k hk, e1]
  simp [root]

/-- Spec: the depth histories.  The depth of a sample is set at its leaf. -/
inductive SampleOp (δ : Type) where
  | hit (x y : Nat) (depth : δ)
  | update

/-- **C28.**  For every region and number of samples, every history of sample
depths that the assertions let through, and every bound: `canCull` ends without
overflowing its stack; when it answers that the bound can be culled, the depth
stored for every sample whose cell the bound touches is nearer than the bound;
and when that holds of every sample touched and the bound is at a positive
depth, it does answer so. -/
theorem C28_cull {δ : Type} [LinearOrder δ] (zero fltMax : δ) (X Y : ℚ)
    (w h xs ys dx0 dy0 : Nat) (hw : 0 < w) (hh : 0 < h) (hxs : 0 < xs) (hys : 0 < ys)
    (hx : w * xs ≤ 2 ^ dx0) (hy : h * ys ≤ 2 ^ dy0) :
    ∃ leaf t, setupTree zero fltMax X Y w h xs ys dx0 dy0 =
        some ((samples (w * xs) (h * ys)).map leaf, t) ∧
      ∀ (hist : List (SampleOp δ)) (t' : Tree ℚ δ),
        (∀ x y d, SampleOp.hit x y d ∈ hist → x < w * xs ∧ y < h * ys) →
        run t (hist.map (fun o => match o with
          | .hit x y d => .setDepth d (leaf (x, y))
          | .update => .update)) = some t' →
        ∀ (x0 y0 x1 y1 : ℚ) (z : δ), ∃ F b, (∀ fuel, F ≤ fuel →
            canCull avg t' x0 y0 x1 y1 z fuel = .cull b) ∧
          (b = true → ∀ x y, x < w * xs → y < h * ys →
            x0 ≤ X + (x + 1) / xs → X + x / xs ≤ x1 → y0 ≤ Y + (y + 1) / ys → Y + y / ys ≤ y1 →
            hist.foldl (fun acc o => match o with
              | .hit x' y' d => if x = x' ∧ y = y' then d else acc
              | .update => acc) fltMax < z) ∧
          (zero < z → (∀ x y, x < w * xs → y < h * ys →
            x0 ≤ X + (x + 1) / xs → X + x / xs ≤ x1 → y0 ≤ Y + (y + 1) / ys → Y + y / ys ≤ y1 →
            hist.foldl (fun acc o => match o with
              | .hit x' y' d => if x = x' ∧ y = y' then d else acc
              | .update => acc) fltMax < z) → b = true) := by
  obtain ⟨D, sx, leaf, t, h1, h2, h3, h4, h5, h6, h7, h8⟩ :=
    setup_spec zero fltMax X Y w h xs ys dx0 dy0 hw hh hxs hys hx hy
  refine ⟨leaf, t, h1, ?_⟩
  intro hist t' hleg hrun x0 y0 x1 y1 z
  have hleaf : ∀ x y, x < w * xs → y < h * ys → 2 ^ D - 1 ≤ leaf (x, y) := by
    intro x y hx' hy'
    obtain ⟨k, _, e, _⟩ := h8 (x, y) (mem_samples.mpr ⟨hx', hy'⟩)
    omega
  -- the history on leaves
  have hon : ∀ hist : List (SampleOp δ),
      (∀ x y d, SampleOp.hit x y d ∈ hist → x < w * xs ∧ y < h * ys) →
      OnLeaves D (hist.map (fun o => match o with
          | .hit x y d => Op.setDepth d (leaf (x, y))
          | .update => .update)) := by
    intro hist
    induction hist with
    | nil => intro _; trivial
    | cons o os ih =>
      intro hl
      have := ih (fun x y d hm => hl x y d (by simp [hm]))
      cases o with
      | hit x y d =>
        obtain ⟨a, b⟩ := hl x y d (by simp)
        exact ⟨hleaf x y a b, this⟩
      | update => exact this
  obtain ⟨r1, r2, r3, r4, r5⟩ := run_inv D _ t t' h3 h4 h5 (hon hist hleg) hrun
  -- depth of the leaf of a sample
  have hafter : ∀ x y, x < w * xs → y < h * ys → ∀ (hist : List (SampleOp δ)),
      (∀ x y d, SampleOp.hit x y d ∈ hist → x < w * xs ∧ y < h * ys) → ∀ d0,
      leafAfter (leaf (x, y)) d0 (hist.map (fun o => match o with
          | .hit x y d => Op.setDepth d (leaf (x, y))
          | .update => .update)) =
      hist.foldl (fun acc o => match o with
              | .hit x' y' d => if x = x' ∧ y = y' then d else acc
              | .update => acc) d0 := by
    intro x y hx' hy' hist
    induction hist with
    | nil => intro _ d0; rfl
    | cons o os ih =>
      intro hl d0
      have ih' := ih (fun x y d hm => hl x y d (by simp [hm]))
      cases o with
      | hit a b d =>
        obtain ⟨ha, hb⟩ := hl a b d (by simp)
        simp only [List.map_cons, leafAfter, List.foldl_cons]
        rw [ih']
        congr 1
        by_cases e : x = a ∧ y = b
        · rw [if_pos e, if_pos (by rw [e.1, e.2])]
        · rw [if_neg e, if_neg]
          intro he
          have := h2 (x, y) (mem_samples.mpr ⟨hx', hy'⟩) (a, b) (mem_samples.mpr ⟨ha, hb⟩) he
          exact e ⟨congrArg Prod.fst this, congrArg Prod.snd this⟩
      | update =>
        simp only [List.map_cons, leafAfter, List.foldl_cons]
        exact ih' d0
  have hdep : ∀ x y, x < w * xs → y < h * ys → t'.depths (leaf (x, y)) =
      hist.foldl (fun acc o => match o with
              | .hit x' y' d => if x = x' ∧ y = y' then d else acc
              | .update => acc) fltMax := by
    intro x y hx' hy'
    rw [r5 _ (hleaf x y hx' hy'), h7 _ (hleaf x y hx' hy'),
      if_pos (List.mem_map_of_mem (mem_samples.mpr ⟨hx', hy'⟩)), hafter x y hx' hy' hist hleg]
  -- a leaf without a sample keeps its depth
  have hzero : ∀ i, 2 ^ D - 1 ≤ i → i ∉ (samples (w * xs) (h * ys)).map leaf →
      t'.depths i = zero := by
    intro i hi hm
    rw [r5 i hi, h7 i hi, if_neg hm]
    have : ∀ (hist : List (SampleOp δ)),
        (∀ x y d, SampleOp.hit x y d ∈ hist → x < w * xs ∧ y < h * ys) → ∀ d0,
        leafAfter i d0 (hist.map (fun o => match o with
          | .hit x y d => Op.setDepth d (leaf (x, y))
          | .update => .update)) = d0 := by
      intro hist
      induction hist with
      | nil => intro _ d0; rfl
      | cons o os ih =>
        intro hl d0
        have ih' := ih (fun x y d hm => hl x y d (by simp [hm]))
        cases o with
        | hit a b d =>
          obtain ⟨ha, hb⟩ := hl a b d (by simp)
          simp only [List.map_cons, leafAfter]
          rw [ih', if_neg]
          intro he
          exact hm (he ▸ List.mem_map_of_mem (mem_samples.mpr ⟨ha, hb⟩))
        | update => exact ih' d0
    exact this hist hleg zero
  have hroot : root t' = root t := r4
  have hord : t'.minX ≤ t'.maxX ∧ t'.minY ≤ t'.maxY := by
    have e1 : t'.minX = t.minX := congrArg Node.minX hroot
    have e2 : t'.maxX = t.maxX := congrArg Node.maxX hroot
    have e3 : t'.minY = t.minY := congrArg Node.minY hroot
    have e4 : t'.maxY = t.maxY := congrArg Node.maxY hroot
    rw [e1, e2, e3, e4]; exact h6
  obtain ⟨b, hb1, hb2⟩ := canCull_iff avg_between t' D r1 r2 r3 hord x0 y0 x1 y1 z
    (2 ^ (D + 1)) (le_refl _)
  refine ⟨2 ^ (D + 1), b, ?_, ?_, ?_⟩
  · intro fuel hf
    obtain ⟨b', c1, c2⟩ := canCull_iff avg_between t' D r1 r2 r3 hord x0 y0 x1 y1 z fuel hf
    rw [c1]
    congr 1
    have : b' = true ↔ b = true := by rw [c2, hb2]
    clear c1 c2 hb1 hb2
    revert this
    cases b' <;> cases b <;> simp
  · intro hbt x y hx' hy' q1 q2 q3 q4
    obtain ⟨k, hk, e1, i, e2⟩ := h8 (x, y) (mem_samples.mpr ⟨hx', hy'⟩)
    have := hb2.mp hbt k hk (by rw [hroot, e2]; exact ⟨q1, q2, q3, q4⟩)
    rw [← e1, hdep x y hx' hy'] at this
    exact this
  · intro hz hall
    rw [hb2]
    intro k hk htouch
    by_cases hm : 2 ^ D - 1 + k ∈ (samples (w * xs) (h * ys)).map leaf
    · obtain ⟨⟨x, y⟩, hp, hl⟩ := List.mem_map.mp hm
      obtain ⟨hx', hy'⟩ := mem_samples.mp hp
      obtain ⟨k', hk', e1, i, e2⟩ := h8 (x, y) hp
      have hkk : k' = k := by omega
      subst hkk
      rw [hroot, e2] at htouch
      rw [← e1, hdep x y hx' hy']
      exact hall x y hx' hy' htouch.1 htouch.2.1 htouch.2.2.1 htouch.2.2.2
    · rw [hzero _ (by omega) hm]
      exact hz

/-- A 1 by 1 pixel region with 2 by 2 samples: four leaves, numbered along the
interlaced bits. -/
example : (setupTree (δ := Nat) 0 100 0 0 1 1 2 2 1 1).map (·.1) = some [3, 5, 4, 6] := by
  decide +kernel

/-- After the two left samples have been hit at depth 5, something behind them at
depth 7 can be culled, but not when it reaches to the right. -/
example :
    ((setupTree (δ := Nat) 0 100 0 0 1 1 2 2 1 1).bind fun p =>
      (run p.2 [.setDepth 5 3, .setDepth 5 4, .update]).map fun t =>
        (canCull avg t 0 0 (1 / 4) 1 7 100, canCull avg t 0 0 (3 / 4) 1 7 100)) =
      some (.cull true, .cull false) := by
  decide +kernel

end Verif.Core.Occlusion
