import Verif.Point.Walk
import Verif.Point.OctreeProps
import Verif.Point.MicroBufProps

/-!
Lemmas about The walk over the tree of surfels
-/

namespace Verif.Point.Walk

open Verif.Point.Octree Verif.Point.Octree.Spec

namespace Spec

/-- The tree is not higher than so many levels of inner nodes. -/
def Low : Nat → Tree → Prop
  | _, .empty => True
  | _, .leaf _ _ _ => True
  | 0, .node _ _ _ => False
  | h + 1, .node _ _ c => ∀ i, Low h (c i)

/-- The number of nodes. -/
def size : Tree → Nat
  | .empty => 1
  | .leaf _ _ _ => 1
  | .node _ _ c => 1 + ((List.finRange 8).map fun i => size (c i)).sum

/-- There is a leaf with more than eight points. -/
def Big : Tree → Prop
  | .empty => False
  | .leaf _ _ l => 8 < l.length
  | .node _ _ c => ∃ i, Big (c i)

/-- The surfels shown by an item. -/
def shown : Item → List Surfel
  | .crude t => points t
  | .surfel x => [x]

/-- The square of a distance. -/
def gap (p q : Fin 3 → ℝ) : ℝ := (p 0 - q 0) ^ 2 + (p 1 - q 1) ^ 2 + (p 2 - q 2) ^ 2

/-- The middle of the box of a node. -/
noncomputable def middle : Tree → Fin 3 → ℝ
  | .empty => fun _ => 0
  | .leaf b _ _ => fun k => (b.lo k + b.hi k) / 2
  | .node b _ _ => fun k => (b.lo k + b.hi k) / 2

end Spec

open Verif.Point.Walk.Spec

/-! ## The stack -/

/-- What the walk draws. -/
noncomputable def draw (v : View) : Tree → List Item
  | .empty => if culled v .empty then [] else if far v .empty then [.crude .empty] else []
  | .leaf b a l => if culled v (.leaf b a l) then [] else if far v (.leaf b a l) then [.crude (.leaf b a l)]
      else (sorted v l).map .surfel
  | .node b a c => if culled v (.node b a c) then [] else if far v (.node b a c) then [.crude (.node b a c)]
      else (order v c).flatMap fun i => draw v (c i)

/-- The stack is low enough. -/
def Inv : List Tree → Prop
  | [] => True
  | t :: st => (∃ h, Low h t ∧ st.length + 7 * h + 1 ≤ 200) ∧ Inv st

theorem inv_push (h : Nat) (l st : List Tree) (hl : ∀ t ∈ l, Low h t) (hs : Inv st) (n : Nat) (hn : l.length ≤ n + 1)
    (hb : n + st.length + 7 * h + 1 ≤ 200) : Inv (l ++ st) := by
  induction l generalizing n with
  | nil => exact hs
  | cons t l ih =>
    refine ⟨⟨h, hl t (by simp), ?_⟩, ?_⟩
    · rw [List.length_cons] at hn
      show (l ++ st).length + 7 * h + 1 ≤ 200
      rw [List.length_append]
      omega
    · rw [List.length_cons] at hn
      cases n with
      | zero =>
        have : l = [] := List.length_eq_zero_iff.mp (by omega)
        rw [this]
        exact hs
      | succ n => exact ih (fun t ht => hl t (by simp [ht])) n (by omega) (by omega)

theorem order_perm (v : View) (c : Fin 8 → Tree) : (order v c).Perm ((List.finRange 8).filter fun i => there (c i)) :=
  List.mergeSort_perm _ _

theorem order_length (v : View) (c : Fin 8 → Tree) : (order v c).length ≤ 8 := by
  rw [(order_perm v c).length_eq]
  exact (List.length_filter_le _ _).trans (by simp)

theorem filter_sum {A : Type} (p : A → Bool) (f : A → Nat) (l : List A) : ((l.filter p).map f).sum ≤ (l.map f).sum := by
  induction l with
  | nil => simp
  | cons x l ih =>
    rw [List.filter_cons]
    split_ifs
    · simp only [List.map_cons, List.sum_cons]; omega
    · simp only [List.map_cons, List.sum_cons]; omega

theorem size_pos (t : Tree) : 1 ≤ size t := by
  cases t <;> simp [size]

theorem walk_draw (v : View) (n : Nat) (st : List Tree) (hi : Inv st) (hn : (st.map size).sum ≤ n) :
    walk v n st = .done (st.flatMap (draw v)) ∨ (walk v n st = .assertion ∧ ∃ t ∈ st, Big t) := by
  induction n generalizing st with
  | zero =>
    cases st with
    | nil => left; rfl
    | cons t st =>
      have := size_pos t
      simp at hn
      omega
  | succ n ih =>
    cases st with
    | nil => left; rfl
    | cons t st =>
      have hs := size_pos t
      rw [List.map_cons, List.sum_cons] at hn
      obtain ⟨⟨h, hlow, hh⟩, hi'⟩ := hi
      have rest := ih st hi' (by omega)
      have up : (∃ u ∈ st, Big u) → ∃ u ∈ t :: st, Big u := fun ⟨u, hu, hb⟩ => ⟨u, by simp [hu], hb⟩
      rw [List.flatMap_cons]
      by_cases hc : culled v t = true
      · have e : draw v t = [] := by cases t <;> simp [draw, hc]
        rw [e]
        have w : walk v (n + 1) (t :: st) = walk v n st := by rw [walk.eq_def]; simp [hc]
        rw [w]
        rcases rest with r | ⟨r, b⟩
        · left; rw [r]; rfl
        · right; exact ⟨r, up b⟩
      · by_cases hf : far v t = true
        · have e : draw v t = [.crude t] := by cases t <;> simp [draw, hc, hf]
          rw [e]
          have w : walk v (n + 1) (t :: st) = (walk v n st).after [.crude t] := by rw [walk.eq_def]; simp [hc, hf]
          rw [w]
          rcases rest with r | ⟨r, b⟩
          · left; rw [r]; rfl
          · right; rw [r]; exact ⟨rfl, up b⟩
        · cases t with
          | empty =>
            have e : draw v .empty = [] := by simp [draw, hf]
            have w : walk v (n + 1) (.empty :: st) = walk v n st := by rw [walk]; simp [hf]
            rw [e, w]
            rcases rest with r | ⟨r, b⟩
            · left; rw [r]; rfl
            · right; exact ⟨r, up b⟩
          | leaf b a l =>
            have e : draw v (.leaf b a l) = (sorted v l).map .surfel := by simp [draw, hc, hf]
            by_cases h8 : l.length ≤ 8
            · have w : walk v (n + 1) (.leaf b a l :: st) = (walk v n st).after ((sorted v l).map .surfel) := by
                rw [walk]; simp [hc, hf, h8]
              rw [e, w]
              rcases rest with r | ⟨r, b⟩
              · left; rw [r]; rfl
              · right; rw [r]; exact ⟨rfl, up b⟩
            · right
              refine ⟨by rw [walk]; simp [hc, hf, h8], _, List.mem_cons_self, ?_⟩
              exact not_le.mp h8
          | node b a c =>
            have e : draw v (.node b a c) = (order v c).flatMap fun i => draw v (c i) := by simp [draw, hc, hf]
            cases h with
            | zero => exact absurd hlow (by simp [Low])
            | succ h =>
              have ol := order_length v c
              have hlen : ((order v c).map c ++ st).length ≤ 200 := by
                rw [List.length_append, List.length_map]; omega
              have w : walk v (n + 1) (.node b a c :: st) = walk v n ((order v c).map c ++ st) := by
                rw [walk]; simp only [hc, hf]; simp only [if_pos hlen]; simp
              have hsz : (((order v c).map c ++ st).map size).sum ≤ n := by
                rw [List.map_append, List.sum_append, List.map_map]
                have h1 := ((order_perm v c).map (size ∘ c)).sum_eq
                have h2 := filter_sum (fun i => there (c i)) (size ∘ c) (List.finRange 8)
                simp only [size] at hn
                have h3 : ((List.finRange 8).map (size ∘ c)).sum = ((List.finRange 8).map fun i => size (c i)).sum := rfl
                omega
              have hinv : Inv ((order v c).map c ++ st) := by
                refine inv_push h _ _ ?_ hi' 7 (by simpa using ol) (by omega)
                intro u hu
                obtain ⟨i, _, rfl⟩ := List.mem_map.mp hu
                exact hlow i
              rw [e, w]
              rcases ih _ hinv hsz with r | ⟨r, u, hu, hb⟩
              · left
                rw [r, List.flatMap_append, List.flatMap_map]
              · right
                refine ⟨r, ?_⟩
                rcases List.mem_append.mp hu with hu | hu
                · obtain ⟨i, _, rfl⟩ := List.mem_map.mp hu
                  exact ⟨_, List.mem_cons_self, i, hb⟩
                · exact up ⟨u, hu, hb⟩

theorem walk_one (v : View) (n : Nat) (t : Tree) (hl : Low 24 t) (hn : size t ≤ n) :
    walk v n [t] = .done (draw v t) ∨ (walk v n [t] = .assertion ∧ Big t) := by
  have := walk_draw v n [t] ⟨⟨24, hl, by simp⟩, trivial⟩ (by simpa using hn)
  simpa using this

theorem low_make (left : Nat) (l : List Surfel) (b : Box) : Low left (makeTree left l b) := by
  induction left generalizing l b with
  | zero => exact trivial
  | succ n ih =>
    unfold makeTree
    split_ifs
    · exact trivial
    · intro i
      simp only
      split_ifs
      · unfold Low; trivial
      · exact ih _ _

/-! ## What is shown -/

theorem drop_empty {A B : Type} (p : A → Bool) (f : A → List B) (l : List A) (h : ∀ i, p i = false → f i = []) :
    (l.filter p).flatMap f = l.flatMap f := by
  induction l with
  | nil => rfl
  | cons x l ih =>
    rw [List.filter_cons]
    by_cases hp : p x = true
    · rw [if_pos hp, List.flatMap_cons, List.flatMap_cons, ih]
    · rw [if_neg hp, List.flatMap_cons, h x (by simpa using hp), ih]; rfl

/-- Culled within a box. -/
def Away (v : View) (x : Surfel) : Prop :=
  ∃ b : Box, Inside b x.p ∧ sphereOutsideCone (fun k => b.center k - v.P k) (v.dist b.center) (boundRadius b) v.N v.c v.s = true

theorem draw_shown (v : View) (t : Tree) (hf : Fits t) :
    ∃ hid : List Surfel, ((draw v t).flatMap shown ++ hid).Perm (points t) ∧ ∀ x ∈ hid, Away v x := by
  induction t with
  | empty =>
    refine ⟨[], ?_, by simp⟩
    unfold draw
    split_ifs <;> simp [shown, points]
  | leaf b a l =>
    by_cases hc : culled v (.leaf b a l) = true
    · refine ⟨l, by simp [draw, hc, points], fun x hx => ⟨b, hf x hx, hc⟩⟩
    · refine ⟨[], ?_, by simp⟩
      by_cases hr : far v (.leaf b a l) = true
      · simp [draw, hc, hr, shown]
      · have e : draw v (.leaf b a l) = (sorted v l).map .surfel := by simp [draw, hc, hr]
        rw [e, List.flatMap_map]
        have : (sorted v l).flatMap (fun x => shown (.surfel x)) = sorted v l := by
          simp [shown]
        rw [this, List.append_nil]
        exact List.mergeSort_perm _ _
  | node b a c ih =>
    by_cases hc : culled v (.node b a c) = true
    · refine ⟨points (.node b a c), by simp [draw, hc], fun x hx => ⟨b, ?_, hc⟩⟩
      simp only [points] at hx
      obtain ⟨i, _, hi⟩ := List.mem_flatMap.mp hx
      exact (hf i).2 x hi
    · by_cases hr : far v (.node b a c) = true
      · exact ⟨[], by simp [draw, hc, hr, shown], by simp⟩
      · have e : draw v (.node b a c) = (order v c).flatMap fun i => draw v (c i) := by simp [draw, hc, hr]
        choose hid hp ha using fun i => ih i (hf i).1
        refine ⟨(order v c).flatMap hid, ?_, ?_⟩
        · rw [e, List.flatMap_assoc]
          refine (List.flatMap_append_perm _ _ _).trans ?_
          refine (List.Perm.flatMap_left _ fun i _ => hp i).trans ?_
          refine (List.Perm.flatMap_right _ (order_perm v c)).trans ?_
          rw [drop_empty (fun i => there (c i)) (fun i => points (c i))]
          · exact List.Perm.refl _
          · intro i hi
            cases hci : c i with
            | empty => rfl
            | leaf => rw [hci] at hi; simp [there] at hi
            | node => rw [hci] at hi; simp [there] at hi
        · intro x hx
          obtain ⟨i, _, hi⟩ := List.mem_flatMap.mp hx
          exact ha i x hi

theorem away_cone (v : View) (hN : Verif.Point.Spec.inner v.N v.N = 1) (hs : 0 ≤ v.s) (hcs : v.c * v.c + v.s * v.s = 1) (x : Surfel) (h : Away v x)
    (hx : x.p ≠ v.P) : Verif.Point.Spec.inner (fun k => x.p k - v.P k) v.N < v.c * Verif.Point.Spec.len (fun k => x.p k - v.P k) := by
  obtain ⟨b, hb, hc⟩ := h
  have hr : 0 ≤ boundRadius b := by
    unfold boundRadius
    positivity
  refine C104_cone _ v.N (boundRadius b) v.c v.s hN hr hs hcs hc _ ?_ ?_
  · intro e
    apply hx
    funext k
    have := congrFun e k
    simp only [Pi.zero_apply] at this
    linarith
  · have hsp := C108_sphere b x.p hb
    have h0 : 0 ≤ (x.p 0 - b.center 0) ^ 2 + (x.p 1 - b.center 1) ^ 2 + (x.p 2 - b.center 2) ^ 2 := by positivity
    have := Real.sqrt_le_left hr |>.mp hsp
    simp only [Verif.Point.Spec.inner]
    nlinarith

theorem dist_gap (v : View) (q : V3) : v.dist q = gap q v.P := by
  unfold View.dist dot gap
  ring

theorem draw_crude (v : View) (t s : Tree) (h : .crude s ∈ draw v t) : far v s = true := by
  induction t with
  | empty =>
    unfold draw at h
    split_ifs at h with h1 h2
    · simp at h
    · simp at h; rw [h]; exact h2
    · simp at h
  | leaf b a l =>
    unfold draw at h
    split_ifs at h with h1 h2
    · simp at h
    · simp at h; rw [h]; exact h2
    · simp at h
  | node b a c ih =>
    unfold draw at h
    split_ifs at h with h1 h2
    · simp at h
    · simp at h; rw [h]; exact h2
    · obtain ⟨i, _, hi⟩ := List.mem_flatMap.mp h
      exact ih i hi

/-! ## Order -/

theorem center_middle (t : Tree) : center t = middle t := by
  funext k
  cases t <;> simp only [center, middle, bound, Box.center] <;> ring

/-! ## Deep leaves -/

/-- A surfel at the origin. -/
def still : Surfel := ⟨fun _ => 0, fun _ => 0, 1, fun _ => 0⟩

/-- The box of one place. -/
def dotBox : Box := ⟨fun _ => 0, fun _ => 0⟩

/-- A view from the origin over a half space. -/
def view0 : View := ⟨fun _ => 0, ![0, 0, 1], 0, 1, 0⟩

theorem still_part (k : Nat) (i : Fin 8) : part dotBox.center (List.replicate k still) i = if i = 0 then List.replicate k still else [] := by
  have hc : cellIndex dotBox.center still.p = 0 := by
    unfold cellIndex dotBox Box.center still
    norm_num
  unfold part
  split_ifs with h
  · subst h
    rw [List.filter_eq_self]
    intro x hx
    rw [List.eq_of_mem_replicate hx, hc]
    simp
  · rw [List.filter_eq_nil_iff]
    intro x hx
    rw [List.eq_of_mem_replicate hx, hc]
    intro hh
    rw [decide_eq_true_eq] at hh
    exact h (Fin.ext (by simpa using hh.symm))

theorem dotBox_child : childBound dotBox 0 = dotBox := by
  unfold childBound dotBox Box.center
  simp only [Box.mk.injEq]
  constructor <;> funext k <;> fin_cases k <;> norm_num

theorem far0 (t : Tree) (v : View) (hv : v.max ≤ 0) : far v t = false := by
  unfold far
  rw [decide_eq_false_iff_not]
  rintro ⟨_, h⟩
  have h0 : 0 ≤ v.dist t.agg.p := by rw [dist_gap]; unfold gap; positivity
  have : 0 ≤ Real.pi * t.agg.r * t.agg.r / v.dist t.agg.p := by
    apply div_nonneg _ h0
    have := Real.pi_pos
    nlinarith [mul_nonneg this.le (mul_self_nonneg t.agg.r)]
  linarith

theorem cull0 (t : Tree) (h : bound t = dotBox) : culled view0 t = false := by
  unfold culled center View.dist boundRadius
  rw [h]
  simp [sphereOutsideCone, copysign, dot, view0, dotBox, Box.center, Box.size]

theorem deep (left : Nat) (n : Nat) (hn : left + 1 ≤ n) : walk view0 n [makeTree left (List.replicate 9 still) dotBox] = .assertion := by
  induction left generalizing n with
  | zero =>
    obtain ⟨m, rfl⟩ : ∃ m, n = m + 1 := ⟨n - 1, by omega⟩
    rw [makeTree, walk, cull0 _ rfl, far0 _ _ (le_refl _)]
    simp
  | succ k ih =>
    obtain ⟨m, rfl⟩ : ∃ m, n = m + 1 := ⟨n - 1, by omega⟩
    rw [makeTree, if_neg (by simp), walk, cull0 _ rfl, far0 _ _ (le_refl _)]
    have hch : (fun i : Fin 8 => if (part dotBox.center (List.replicate 9 still) i).length = 0 then Tree.empty
          else makeTree k (part dotBox.center (List.replicate 9 still) i) (childBound dotBox i.val))
        = fun i => if i = 0 then makeTree k (List.replicate 9 still) dotBox else .empty := by
      funext i
      rw [still_part]
      by_cases h : i = 0
      · subst h
        simp [dotBox_child]
      · simp [h]
    simp only [hch]
    have ho : order view0 (fun i : Fin 8 => if i = 0 then makeTree k (List.replicate 9 still) dotBox else .empty) = [0] := by
      unfold order
      have hf : ((List.finRange 8).filter fun i : Fin 8 => there (if i = 0 then makeTree k (List.replicate 9 still) dotBox else .empty)) = [0] := by
        have ht : there (makeTree k (List.replicate 9 still) dotBox) = true := by
          cases k with
          | zero => rfl
          | succ k => unfold makeTree; split_ifs <;> rfl
        have : (fun i : Fin 8 => there (if i = 0 then makeTree k (List.replicate 9 still) dotBox else .empty)) = fun i => decide (i = 0) := by
          funext i
          by_cases h : i = 0
          · rw [if_pos h, ht, decide_eq_true h]
          · simp [h, there]
        rw [this]
        decide
      rw [hf, List.mergeSort_singleton]
    rw [ho]
    simpa using ih m (by omega)

end Verif.Point.Walk
