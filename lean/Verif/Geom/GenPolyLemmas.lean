import Verif.Geom.GenPoly
import Mathlib.Tactic.Ring
import Mathlib.Tactic.Abel
import Mathlib.Tactic.Linarith
import Mathlib.Tactic.LinearCombination
import Mathlib.Tactic.SplitIfs
import Mathlib.Tactic.NormNum
import Mathlib.Tactic.Push
import Mathlib.Tactic.Positivity
import Mathlib.Data.List.Nodup
import Mathlib.Data.List.Sublists
import Mathlib.Algebra.BigOperators.Group.List.Basic

/-! Lemmas for the theorems about general polygons, and the words their statements use. -/

namespace Verif.Geom.GenPoly

/-! ## Words of the statements -/

section Spec

variable {G : Type} [AddCommGroup G] {α : Type}

/-- The sum of `w` over the steps of a path. -/
def pathSum (w : α → α → G) : List α → G
  | a :: b :: t => w a b + pathSum w (b :: t)
  | _ => 0

/-- The sum of `w` over the edges of a closed loop. -/
def loopSum (w : α → α → G) : List α → G
  | [] => 0
  | a :: t => pathSum w (a :: t ++ [a])

/-- The sum of `w` over the edges of a triangle. -/
def triSum (w : α → α → G) (t : α × α × α) : G := w t.1 t.2.1 + w t.2.1 t.2.2 + w t.2.2 t.1

variable {K : Type} [Field K] [LinearOrder K]

/-- The number of times that the ray from `p` to the right is crossed by the edge upwards. -/
def ray (p a b : K × K) : Int :=
  if a.2 ≤ p.2 ∧ p.2 < b.2 then (if 0 < det a b p then 1 else 0)
  else if b.2 ≤ p.2 ∧ p.2 < a.2 then (if 0 < det b a p then -1 else 0)
  else 0

/-- How often the loop goes around the point. -/
def winding (p : K × K) (l : List (K × K)) : Int := loopSum (ray p) l

/-- The point is inside of the triangle, whatever its direction. -/
def inTri (p : K × K) (t : (K × K) × (K × K) × (K × K)) : Prop :=
  (0 < det t.1 t.2.1 p ∧ 0 < det t.2.1 t.2.2 p ∧ 0 < det t.2.2 t.1 p) ∨
  (det t.1 t.2.1 p < 0 ∧ det t.2.1 t.2.2 p < 0 ∧ det t.2.2 t.1 p < 0)

instance (p : K × K) (t : (K × K) × (K × K) × (K × K)) : Decidable (inTri p t) := by unfold inTri; infer_instance

/-- The point is on no line through two corners of the triangle. -/
def offLines (p : K × K) (t : (K × K) × (K × K) × (K × K)) : Prop :=
  det t.1 t.2.1 p ≠ 0 ∧ det t.2.1 t.2.2 p ≠ 0 ∧ det t.2.2 t.1 p ≠ 0

/-- The corners of a triangle. -/
def corners {β : Type} (f : Nat → β) (t : Nat × Nat × Nat) : β × β × β := (f t.1, f t.2.1, f t.2.2)

/-- Twice the area of a triangle, positive if it runs against the clock. -/
def area2 (t : (K × K) × (K × K) × (K × K)) : K := det t.1 t.2.1 t.2.2

/-- All corners turn to the same side. -/
def Turns (o : Orient) (l : List (K × K)) : Prop :=
  ∀ a b c : K × K, [a, b, c].Sublist l → orientOf (det a b c) = o

end Spec

/-! ## Sums over loops -/

section Loops

variable {G : Type} [AddCommGroup G] {α : Type} {w : α → α → G}

theorem pathSum_append (A : List α) (p : α) (R : List α) :
    pathSum w (A ++ p :: R) = pathSum w (A ++ [p]) + pathSum w (p :: R) := by
  induction A with
  | nil => simp [pathSum]
  | cons a A ih =>
    cases A with
    | nil => simp [pathSum]
    | cons b A =>
      simp only [List.cons_append, pathSum] at ih ⊢
      rw [ih, add_assoc]

theorem pathSum_pair (A : List α) (p q : α) : pathSum w (A ++ [p, q]) = pathSum w (A ++ [p]) + w p q := by
  rw [pathSum_append]; simp [pathSum]

/-- A loop may begin anywhere. -/
theorem pathSum_rotate (A B : List α) (a : α) :
    pathSum w (a :: B ++ A ++ [a]) = loopSum w (A ++ a :: B) := by
  cases A with
  | nil => simp [loopSum]
  | cons h A =>
    show pathSum w (a :: B ++ h :: A ++ [a]) = pathSum w (h :: (A ++ a :: B) ++ [h])
    have e1 : a :: B ++ h :: A ++ [a] = (a :: B) ++ h :: (A ++ [a]) := by simp
    have e2 : h :: (A ++ a :: B) ++ [h] = (h :: A) ++ a :: (B ++ [h]) := by simp
    rw [e1, e2, pathSum_append, pathSum_append (h :: A) a]
    simp only [List.cons_append]
    rw [add_comm]

variable (hw : ∀ a b, w b a = - w a b)
include hw

/-- Cutting off a corner takes away a triangle. -/
theorem loopSum_eraseIdx (d : α) (l : List α) (k : Nat) (hk : k < l.length) (hl : 3 ≤ l.length) :
    loopSum w l =
      triSum w (l.getD (prevIx l.length k) d, l.getD k d, l.getD (nextIx l.length k) d) + loopSum w (l.eraseIdx k) := by
  rcases Nat.eq_zero_or_pos k with rfl | hpos
  · match l, hl with
    | x :: b :: t, hl =>
      have ht : t ≠ [] := by intro h; subst h; simp at hl
      obtain ⟨t', z, rfl⟩ : ∃ t' z, t = t' ++ [z] := ⟨t.dropLast, t.getLast ht, (List.dropLast_append_getLast ht).symm⟩
      have h1 : (x :: b :: (t' ++ [z])).getD (prevIx (x :: b :: (t' ++ [z])).length 0) d = z := by
        simp [prevIx]
      have h2 : (x :: b :: (t' ++ [z])).getD (nextIx (x :: b :: (t' ++ [z])).length 0) d = b := by
        simp [nextIx]
      rw [h1, h2]
      simp only [List.getD_cons_zero, List.eraseIdx_zero, List.tail_cons, loopSum, triSum]
      have e1 : x :: b :: (t' ++ [z]) ++ [x] = x :: ((b :: t') ++ [z, x]) := by simp
      have e2 : b :: (t' ++ [z]) ++ [b] = (b :: t') ++ [z, b] := by simp
      rw [e1, e2, pathSum_pair]
      show w x b + pathSum w ((b :: t') ++ [z, x]) = _
      rw [pathSum_pair, hw z b]
      abel
  · have hsplit : l = l.take (k - 1) ++ (l[k - 1]'(by omega)) :: (l[k]'hk) :: l.drop (k + 1) := by
      conv_lhs => rw [← List.take_append_drop (k - 1) l]
      rw [List.drop_eq_getElem_cons (by omega : k - 1 < l.length)]
      have : k - 1 + 1 = k := by omega
      rw [this, List.drop_eq_getElem_cons hk]
    generalize hA : l.take (k - 1) = A at hsplit
    generalize l[k - 1]'(by omega) = p at hsplit
    generalize l[k]'hk = x at hsplit
    generalize l.drop (k + 1) = B at hsplit
    have hAl : A.length = k - 1 := by rw [← hA, List.length_take]; omega
    subst hsplit
    have hlen : (A ++ p :: x :: B).length = k + 1 + B.length := by simp [hAl]; omega
    have hprev : (A ++ p :: x :: B).getD (prevIx (A ++ p :: x :: B).length k) d = p := by
      simp only [prevIx, if_neg (by omega : ¬ k = 0), List.getD_eq_getElem?_getD]
      rw [← hAl]; simp
    have hcur : (A ++ p :: x :: B).getD k d = x := by
      have : k = A.length + 1 := by omega
      simp [List.getD_eq_getElem?_getD, this, List.getElem?_append_right]
    have herase : (A ++ p :: x :: B).eraseIdx k = A ++ p :: B := by
      have : k = A.length + 1 := by omega
      rw [List.eraseIdx_append_of_length_le (by omega)]
      simp [this]
    rw [hprev, hcur, herase]
    obtain ⟨h, T, hT⟩ : ∃ h T, A ++ [p] = h :: T := by
      cases A with
      | nil => exact ⟨p, [], rfl⟩
      | cons a A => exact ⟨a, A ++ [p], rfl⟩
    have hloop : ∀ R : List α, loopSum w (A ++ p :: R) = pathSum w (A ++ [p]) + pathSum w (p :: (R ++ [h])) := by
      intro R
      have e : A ++ p :: R = h :: (T ++ R) := by
        rw [← List.cons_append, ← hT]; simp
      have : loopSum w (A ++ p :: R) = pathSum w (A ++ p :: R ++ [h]) := by
        rw [e]; rfl
      rw [this, ← pathSum_append]; simp
    rw [hloop, hloop]
    obtain ⟨q, R, hR⟩ : ∃ q R, B ++ [h] = q :: R := by
      cases B with
      | nil => exact ⟨h, [], rfl⟩
      | cons b B => exact ⟨b, B ++ [h], rfl⟩
    have hnext : (A ++ p :: x :: B).getD (nextIx (A ++ p :: x :: B).length k) d = q := by
      cases B with
      | nil =>
        have hq : h = q := by simpa using (List.cons.inj hR).1
        have : nextIx (A ++ p :: x :: []).length k = 0 := by
          simp only [nextIx, if_neg (by omega : ¬ k = 0)]
          rw [if_pos (by rw [hlen]; simp)]
        rw [this, ← hq]
        have : A ++ p :: x :: [] = h :: (T ++ [x]) := by
          rw [← List.cons_append, ← hT]; simp
        rw [this]; rfl
      | cons b B =>
        have hq : b = q := (List.cons.inj hR).1
        have : nextIx (A ++ p :: x :: b :: B).length k = k + 1 := by
          simp only [nextIx, if_neg (by omega : ¬ k = 0)]
          rw [if_neg (by rw [hlen]; simp only [List.length_cons]; omega)]
        rw [this, ← hq]
        have : k + 1 = A.length + 2 := by omega
        simp [List.getD_eq_getElem?_getD, this, List.getElem?_append_right]
    rw [hnext, List.cons_append, hR]
    simp only [pathSum, triSum]
    rw [hw p q]
    abel

/-- Two loops joined by a bridge there and back. -/
theorem loopSum_joined (A B : List α) (i j : Nat) (hi : i < A.length) (hj : j < B.length) :
    loopSum w (A.drop i ++ A.take (i + 1) ++ B.drop j ++ B.take (j + 1)) = loopSum w A + loopSum w B := by
  have key : ∀ (L : List α) (n : Nat) (hn : n < L.length), ∃ (L1 L2 : List α) (a : α),
      L = L1 ++ a :: L2 ∧ L.drop n = a :: L2 ∧ L.take (n + 1) = L1 ++ [a] := by
    intro L n hn
    refine ⟨L.take n, L.drop (n + 1), L[n], ?_, List.drop_eq_getElem_cons hn, ?_⟩
    · conv_lhs => rw [← List.take_append_drop n L, List.drop_eq_getElem_cons hn]
    · simp
  obtain ⟨A1, A2, a, hA, hA1, hA2⟩ := key A i hi
  obtain ⟨B1, B2, b, hB, hB1, hB2⟩ := key B j hj
  rw [hA1, hA2, hB1, hB2, hA, hB, ← pathSum_rotate A1 A2 a, ← pathSum_rotate B1 B2 b]
  show pathSum w ((a :: (A2 ++ (A1 ++ [a]) ++ (b :: B2) ++ (B1 ++ [b]))) ++ [a]) = _
  have e : (a :: (A2 ++ (A1 ++ [a]) ++ (b :: B2) ++ (B1 ++ [b]))) ++ [a]
      = (a :: A2 ++ A1) ++ a :: (b :: B2 ++ B1 ++ [b, a]) := by simp
  rw [e, pathSum_append]
  show _ + (w a b + pathSum w (b :: B2 ++ B1 ++ [b, a])) = _
  rw [pathSum_pair, hw a b]
  abel

/-- Backwards, all edges count the other way. -/
theorem loopSum_reverse (l : List α) : loopSum w l.reverse = - loopSum w l := by
  have hp : ∀ m : List α, pathSum w m.reverse = - pathSum w m := by
    intro m
    induction m with
    | nil => simp [pathSum]
    | cons a m ih =>
      cases m with
      | nil => simp [pathSum]
      | cons b m =>
        have e : (a :: b :: m).reverse = m.reverse ++ [b, a] := by simp
        rw [e, pathSum_pair, ← List.reverse_cons, ih]
        simp only [pathSum]
        rw [hw a b]; abel
  cases l with
  | nil => simp [loopSum]
  | cons a t =>
    have h := hp (a :: t ++ [a])
    have h2 : (a :: t ++ [a]).reverse = a :: (t.reverse) ++ [a] := by simp
    rw [h2] at h
    show loopSum w (a :: t).reverse = - pathSum w (a :: t ++ [a])
    rw [← h, List.reverse_cons]
    have := pathSum_rotate (w := w) t.reverse [] a
    simp only [List.cons_append, List.nil_append] at this ⊢
    exact this.symm

omit hw in
theorem loopSum_map {β : Type} (f : β → α) (l : List β) :
    loopSum w (l.map f) = loopSum (fun a b => w (f a) (f b)) l := by
  have hp : ∀ m : List β, pathSum w (m.map f) = pathSum (fun a b => w (f a) (f b)) m := by
    intro m
    induction m with
    | nil => rfl
    | cons a m ih =>
      cases m with
      | nil => rfl
      | cons b m => simp only [List.map_cons, pathSum] at ih ⊢; rw [ih]
  cases l with
  | nil => rfl
  | cons a t =>
    show pathSum w (f a :: t.map f ++ [f a]) = pathSum _ (a :: t ++ [a])
    rw [← hp]; simp

end Loops

/-! ## Cutting off -/

section Clip

variable {K : Type} [Field K] [LinearOrder K]

theorem clip_length (pos : Nat → K × K) (o : Orient) (n : Nat) (l : List Nat) (hl : l.length = n + 3) :
    (clip pos o n l).length ≤ n + 1 := by
  induction n generalizing l with
  | zero => simp [clip, hl]
  | succ n ih =>
    unfold clip
    split
    · simp
    · rename_i k hk
      have hk' : k < l.length := by simpa using List.mem_of_find?_eq_some hk
      have := ih (l.eraseIdx k) (by rw [List.length_eraseIdx_of_lt hk']; omega)
      simp only [List.length_cons]; omega

theorem clip_sum {G : Type} [AddCommGroup G] (w : Nat → Nat → G) (hw : ∀ a b, w b a = - w a b)
    (pos : Nat → K × K) (o : Orient) (n : Nat) (l : List Nat) (hl : l.length = n + 3)
    (hc : (clip pos o n l).length = n + 1) : ((clip pos o n l).map (triSum w)).sum = loopSum w l := by
  induction n generalizing l with
  | zero =>
    match l, hl with
    | [a, b, c], _ => simp [clip, triSum, loopSum, pathSum, add_assoc]
  | succ n ih =>
    unfold clip at hc ⊢
    split at hc
    · simp at hc
    · rename_i k hk
      have hk' : k < l.length := by simpa using List.mem_of_find?_eq_some hk
      have hlen : (l.eraseIdx k).length = n + 3 := by rw [List.length_eraseIdx_of_lt hk']; omega
      rw [List.length_cons] at hc
      rw [loopSum_eraseIdx hw 0 l k hk' (by omega), List.map_cons, List.sum_cons, ih _ hlen (by omega)]

/-- All triangles but the last one are ears. -/
theorem clip_ear (pos : Nat → K × K) (o : Orient) (n : Nat) (l : List Nat) (hl : l.length = n + 3) :
    ∀ t ∈ (clip pos o n l).take n, calcDet pos t.1 t.2.1 t.2.2 = o := by
  induction n generalizing l with
  | zero => simp
  | succ n ih =>
    intro t ht
    unfold clip at ht
    split at ht
    · simp at ht
    · rename_i k hk
      have hk' : k < l.length := by simpa using List.mem_of_find?_eq_some hk
      have he := List.find?_some hk
      rw [List.take_succ_cons, List.mem_cons] at ht
      rcases ht with rfl | ht
      · simp only [isEar, Bool.and_eq_true, beq_iff_eq] at he
        exact he.1
      · exact ih (l.eraseIdx k) (by rw [List.length_eraseIdx_of_lt hk']; omega) t ht

theorem clip_mem (pos : Nat → K × K) (o : Orient) (n : Nat) (l : List Nat) (hl : l.length = n + 3) :
    ∀ t ∈ clip pos o n l, t.1 ∈ l ∧ t.2.1 ∈ l ∧ t.2.2 ∈ l := by
  induction n generalizing l with
  | zero =>
    match l, hl with
    | [a, b, c], _ => simp [clip]
  | succ n ih =>
    intro t ht
    unfold clip at ht
    split at ht
    · simp at ht
    · rename_i k hk
      have hk' : k < l.length := by simpa using List.mem_of_find?_eq_some hk
      have hmem : ∀ i < l.length, l.getD i 0 ∈ l := by
        intro i hi
        rw [List.getD_eq_getElem?_getD, List.getElem?_eq_getElem hi]; exact List.getElem_mem hi
      rw [List.mem_cons] at ht
      rcases ht with rfl | ht
      · refine ⟨hmem _ ?_, hmem _ hk', hmem _ ?_⟩
        · unfold prevIx; split_ifs <;> omega
        · unfold nextIx; split_ifs <;> omega
      · have := ih (l.eraseIdx k) (by rw [List.length_eraseIdx_of_lt hk']; omega) t ht
        have hs := List.eraseIdx_subset (l := l) (k := k)
        exact ⟨hs this.1, hs this.2.1, hs this.2.2⟩

omit [LinearOrder K] in
theorem det_rot (a b c : K × K) : det b c a = det a b c := by unfold det; ring

omit [LinearOrder K] in
theorem det_swap (a b c : K × K) : det b a c = - det a b c := by unfold det; ring

omit [LinearOrder K] in
theorem det_rev (a b c : K × K) : det c b a = - det a b c := by unfold det; ring

/-- In a convex polygon the first vertex is an ear. -/
theorem convex_ear (pos : Nat → K × K) (o : Orient) (l : List Nat) (hl : 3 ≤ l.length) (hT : Turns o (l.map pos)) :
    isEar pos o l 0 = true := by
  match l, hl with
  | x :: b :: t, hl =>
    have ht : t ≠ [] := by intro h; subst h; simp at hl
    obtain ⟨t', z, rfl⟩ : ∃ t' z, t = t' ++ [z] := ⟨t.dropLast, t.getLast ht, (List.dropLast_append_getLast ht).symm⟩
    have h1 : (x :: b :: (t' ++ [z])).getD (prevIx (x :: b :: (t' ++ [z])).length 0) 0 = z := by simp [prevIx]
    have h2 : (x :: b :: (t' ++ [z])).getD (nextIx (x :: b :: (t' ++ [z])).length 0) 0 = b := by simp [nextIx]
    have h3 : (x :: b :: (t' ++ [z])).getD 0 0 = x := rfl
    unfold isEar
    rw [h1, h2, h3]
    simp only [Bool.and_eq_true, beq_iff_eq]
    constructor
    · unfold calcDet
      rw [← det_rot]
      apply hT
      simp only [List.map_cons, List.map_append, List.map_nil]
      apply List.Sublist.cons_cons
      apply List.Sublist.cons_cons
      simp
    · unfold noneInside
      rw [List.all_eq_true]
      intro n hn
      simp only [List.mem_cons, List.mem_append, List.not_mem_nil, or_false] at hn
      rcases hn with rfl | rfl | hn | rfl
      · simp
      · simp
      · have : calcDet pos z b n = o := by
          unfold calcDet
          rw [← det_rot]
          apply hT
          simp only [List.map_cons, List.map_append, List.map_nil]
          apply List.Sublist.cons
          apply List.Sublist.cons_cons
          obtain ⟨s, s', rfl⟩ := List.append_of_mem hn
          simp only [List.map_append, List.map_cons, List.append_assoc, List.cons_append]
          apply List.Sublist.trans _ (List.sublist_append_right _ _)
          apply List.Sublist.cons_cons
          exact List.sublist_append_right _ _
        simp [this]
      · simp

theorem Turns.sub {o : Orient} {l l' : List (K × K)} (h : Turns o l) (hs : l'.Sublist l) : Turns o l' :=
  fun a b c habc => h a b c (habc.trans hs)

theorem clip_convex (pos : Nat → K × K) (o : Orient) (n : Nat) (l : List Nat) (hl : l.length = n + 3)
    (hT : Turns o (l.map pos)) :
    (clip pos o n l).length = n + 1 ∧ ∀ t ∈ clip pos o n l, calcDet pos t.1 t.2.1 t.2.2 = o := by
  induction n generalizing l with
  | zero =>
    match l, hl, hT with
    | [a, b, c], _, hT =>
      refine ⟨by simp [clip], ?_⟩
      intro t ht
      simp only [clip, List.length_cons, List.length_nil] at ht
      simp at ht
      subst ht
      exact hT _ _ _ (by simp)
  | succ n ih =>
    have hear := convex_ear pos o l (by omega) hT
    have hf : (List.range l.length).find? (isEar pos o l) = some 0 := by
      rw [hl, List.range_succ_eq_map, List.find?_cons, hear]
    have hstep : clip pos o (n + 1) l =
        (l.getD (prevIx l.length 0) 0, l.getD 0 0, l.getD (nextIx l.length 0) 0) :: clip pos o n (l.eraseIdx 0) := by
      show (match (List.range l.length).find? (isEar pos o l) with
        | none => []
        | some k =>
          (l.getD (prevIx l.length k) 0, l.getD k 0, l.getD (nextIx l.length k) 0) :: clip pos o n (l.eraseIdx k)) = _
      rw [hf]
    have hi := ih (l.eraseIdx 0) (by rw [List.length_eraseIdx_of_lt (by omega)]; omega)
      (hT.sub ((List.eraseIdx_sublist l 0).map pos))
    rw [hstep]
    refine ⟨by rw [List.length_cons, hi.1], ?_⟩
    intro t ht
    rw [List.mem_cons] at ht
    rcases ht with rfl | ht
    · simp only [isEar, Bool.and_eq_true, beq_iff_eq] at hear
      exact hear.1
    · exact hi.2 t ht

/-- The area as a sum over the loop. -/
theorem area_eq (pos : Nat → K × K) (n : Nat) (hn : 0 < n) :
    area pos n = loopSum cross ((List.range n).map pos) := by
  obtain ⟨m, rfl⟩ : ∃ m, n = m + 1 := ⟨n - 1, by omega⟩
  have hp : ∀ k, ∀ s : K, (List.range k).foldl (fun s i => s + cross (pos i) (pos (i + 1))) s
      = pathSum cross ((List.range (k + 1)).map pos) + s := by
    intro k
    induction k with
    | zero => intro s; simp [pathSum]
    | succ k ih =>
      intro s
      rw [List.range_succ, List.foldl_append, ih, List.range_succ (n := k + 1), List.map_append, List.range_succ (n := k)]
      simp only [List.foldl_cons, List.foldl_nil, List.map_append, List.map_cons, List.map_nil, List.append_assoc,
        List.cons_append, List.nil_append]
      rw [pathSum_pair]; ring
  unfold area
  rw [hp]
  have e : (List.range (m + 1)).map pos = pos 0 :: ((List.range m).map fun i => pos (i + 1)) := by
    rw [List.range_succ_eq_map]; simp [Function.comp_def]
  have e2 : (List.range (m + 1)).map pos = (List.range m).map pos ++ [pos m] := by
    rw [List.range_succ]; simp
  have hl : loopSum cross ((List.range (m + 1)).map pos) = pathSum cross ((List.range (m + 1)).map pos ++ [pos 0]) := by
    rw [e]; rfl
  rw [hl, e2, List.append_assoc]
  show _ = pathSum cross ((List.range m).map pos ++ [pos m, pos 0])
  rw [pathSum_pair, Nat.add_sub_cancel, e2]

omit [LinearOrder K] in
theorem cross_anti (a b : K × K) : cross b a = - cross a b := by unfold cross; ring

omit [LinearOrder K] in
theorem triSum_cross (t : (K × K) × (K × K) × (K × K)) : triSum cross t = area2 t := by
  unfold triSum area2 cross det; ring

end Clip

/-! ## Joining loops -/

section Join

variable {K : Type} [Field K] [LinearOrder K]

theorem closer_fold (tie : Nat × Nat → Nat × Nat → Bool) (pos pos' : Nat → K × K) (L : List (Nat × Nat)) (d : K)
    (ij : Nat × Nat) (hd : d = dist2 (pos ij.1) (pos' ij.2)) :
    ∃ kl, L.foldl (closer tie pos pos') (some (d, ij)) = some (dist2 (pos kl.1) (pos' kl.2), kl) ∧
      (kl = ij ∨ kl ∈ L) ∧ dist2 (pos kl.1) (pos' kl.2) ≤ d ∧
      ∀ m ∈ L, dist2 (pos kl.1) (pos' kl.2) ≤ dist2 (pos m.1) (pos' m.2) := by
  induction L generalizing d ij with
  | nil => exact ⟨ij, by simp [hd], Or.inl rfl, hd.ge, by simp⟩
  | cons a L ih =>
    rw [List.foldl_cons]
    unfold closer
    dsimp only
    by_cases h1 : dist2 (pos a.1) (pos' a.2) = d
    · rw [if_pos h1]
      by_cases ht : tie a ij = true
      · rw [if_pos ht]
        obtain ⟨kl, e, hm, hle, hall⟩ := ih d a h1.symm
        refine ⟨kl, e, ?_, hle, ?_⟩
        · rcases hm with rfl | hm <;> simp [*]
        · intro m hmm
          rcases List.mem_cons.1 hmm with rfl | hmm
          · rw [h1]; exact hle
          · exact hall m hmm
      · rw [if_neg ht]
        obtain ⟨kl, e, hm, hle, hall⟩ := ih d ij hd
        refine ⟨kl, e, ?_, hle, ?_⟩
        · rcases hm with rfl | hm <;> simp [*]
        · intro m hmm
          rcases List.mem_cons.1 hmm with rfl | hmm
          · rw [h1]; exact hle
          · exact hall m hmm
    · rw [if_neg h1]
      by_cases h2 : dist2 (pos a.1) (pos' a.2) < d
      · rw [if_pos h2]
        obtain ⟨kl, e, hm, hle, hall⟩ := ih (dist2 (pos a.1) (pos' a.2)) a rfl
        refine ⟨kl, e, ?_, hle.trans h2.le, ?_⟩
        · rcases hm with rfl | hm <;> simp [*]
        · intro m hmm
          rcases List.mem_cons.1 hmm with rfl | hmm
          · exact hle
          · exact hall m hmm
      · rw [if_neg h2]
        obtain ⟨kl, e, hm, hle, hall⟩ := ih d ij hd
        refine ⟨kl, e, ?_, hle, ?_⟩
        · rcases hm with rfl | hm <;> simp [*]
        · intro m hmm
          rcases List.mem_cons.1 hmm with rfl | hmm
          · exact hle.trans (not_lt.1 h2)
          · exact hall m hmm

theorem closest_spec (tie : Nat × Nat → Nat × Nat → Bool) (pos pos' : Nat → K × K) (n m : Nat) (hn : 0 < n) (hm : 0 < m) :
    (closest tie pos pos' n m).1 < n ∧ (closest tie pos pos' n m).2 < m ∧
    ∀ i j, i < n → j < m →
      dist2 (pos (closest tie pos pos' n m).1) (pos' (closest tie pos pos' n m).2) ≤ dist2 (pos i) (pos' j) := by
  have hmem : ∀ i j : Nat, (i, j) ∈ pairsOf n m ↔ i < n ∧ j < m := by
    intro i j; simp [pairsOf]
  obtain ⟨a, L, hL⟩ : ∃ a L, pairsOf n m = a :: L := by
    cases h : pairsOf n m with
    | nil => have := (hmem 0 0).2 ⟨hn, hm⟩; rw [h] at this; simp at this
    | cons a L => exact ⟨a, L, rfl⟩
  obtain ⟨kl, e, hkl, hle, hall⟩ := closer_fold tie pos pos' L (dist2 (pos a.1) (pos' a.2)) a rfl
  have hc : closest tie pos pos' n m = kl := by
    unfold closest
    rw [hL, List.foldl_cons]
    have : closer tie pos pos' none a = some (dist2 (pos a.1) (pos' a.2), a) := rfl
    rw [this, e]
  rw [hc]
  have hk : kl ∈ pairsOf n m := by
    rw [hL]; rcases hkl with rfl | h <;> simp [*]
  have := (hmem kl.1 kl.2).1 hk
  refine ⟨this.1, this.2, ?_⟩
  intro i j hi hj
  have hij := (hmem i j).2 ⟨hi, hj⟩
  rw [hL] at hij
  rcases List.mem_cons.1 hij with h | h
  · rw [← h] at hle; exact hle
  · exact hall (i, j) h

theorem joined_length (A B : List Nat) (i j : Nat) (hi : i < A.length) (hj : j < B.length) :
    (joined A B i j).length = A.length + B.length + 2 := by
  simp only [joined, List.length_append, List.length_drop, List.length_take]; omega

theorem joined_mem {A B : List Nat} {i j v : Nat} (h : v ∈ joined A B i j) : v ∈ A ∨ v ∈ B := by
  simp only [joined, List.mem_append] at h
  rcases h with ((h | h) | h) | h
  · exact Or.inl (List.mem_of_mem_drop h)
  · exact Or.inl (List.mem_of_mem_take h)
  · exact Or.inr (List.mem_of_mem_drop h)
  · exact Or.inr (List.mem_of_mem_take h)

/-- The direction of a loop of points. -/
def dir (l : List (K × K)) : Orient := if 0 ≤ loopSum cross l then .acw else .cw

theorem pt_map (P : Nat → V3 K) (g : Poly) :
    (List.range g.verts.length).map (g.pt P) = g.verts.map fun v => proj g.axis (P v) := by
  apply List.ext_getElem
  · simp
  · intro i h1 h2
    simp only [List.length_map, List.length_range] at h1
    simp [Poly.pt, List.getD_eq_getElem?_getD, h1]

theorem calcOrientation_eq (P : Nat → V3 K) (g : Poly) (h : g.verts ≠ []) :
    calcOrientation P g = some { g with orient := dir (g.verts.map fun v => proj g.axis (P v)) } := by
  unfold calcOrientation dir
  rw [if_neg h, area_eq _ _ (List.length_pos_of_ne_nil h), pt_map]

theorem orientLoop_eq (P : Nat → V3 K) (want : Orient) (l : List Nat) (a : Axis) (h : l ≠ []) :
    ∃ g, orientLoop P want ⟨l, .unknown, a, false⟩ = some g ∧ g.axis = a ∧
      ((g.verts = l ∧ g.reverse = false ∧ dir (l.map fun v => proj a (P v)) = want) ∨
       (g.verts = l.reverse ∧ g.reverse = true ∧ dir (l.map fun v => proj a (P v)) ≠ want)) := by
  unfold orientLoop
  rw [calcOrientation_eq P _ h, Option.bind_some]
  by_cases hd : dir (l.map fun v => proj a (P v)) = want
  · rw [if_neg (by simpa using hd)]
    exact ⟨_, rfl, rfl, Or.inl ⟨rfl, rfl, hd⟩⟩
  · rw [if_pos (by simpa using hd)]
    unfold swapDirection
    rw [calcOrientation_eq P _ (by simpa using h)]
    exact ⟨_, rfl, rfl, Or.inr ⟨rfl, rfl, hd⟩⟩

theorem orientLoop_nil (P : Nat → V3 K) (want : Orient) (a : Axis) :
    orientLoop P want ⟨[], .unknown, a, false⟩ = none := by
  simp [orientLoop, calcOrientation]

theorem orientLoop_spec {P : Nat → V3 K} {want : Orient} {l : List Nat} {a : Axis} {g : Poly}
    (h : orientLoop P want ⟨l, .unknown, a, false⟩ = some g) :
    l ≠ [] ∧ g.axis = a ∧
      ((g.verts = l ∧ g.reverse = false ∧ dir (l.map fun v => proj a (P v)) = want) ∨
       (g.verts = l.reverse ∧ g.reverse = true ∧ dir (l.map fun v => proj a (P v)) ≠ want)) := by
  by_cases hl : l = []
  · subst hl; rw [orientLoop_nil] at h; cases h
  · obtain ⟨g', e, r⟩ := orientLoop_eq P want l a hl
    rw [h] at e
    cases e
    exact ⟨hl, r⟩

/-- A loop in the wanted direction. -/
def towards (want : Orient) (l : List (K × K)) : List (K × K) := if dir l = want then l else l.reverse

theorem combine_sum {G : Type} [AddCommGroup G] {w : K × K → K × K → G} (hw : ∀ a b, w b a = - w a b)
    (tie : Nat × Nat → Nat × Nat → Bool) (P : Nat → V3 K) (g h : Poly) (hg : g.verts ≠ []) (hh : h.verts ≠ []) (a : Axis) :
    loopSum w ((combine tie P g h).verts.map fun v => proj a (P v)) =
      loopSum w (g.verts.map fun v => proj a (P v)) + loopSum w (h.verts.map fun v => proj a (P v)) := by
  have hc := closest_spec tie (g.pt P) (h.pt P) _ _ (List.length_pos_of_ne_nil hg) (List.length_pos_of_ne_nil hh)
  unfold combine joined
  simp only [List.map_append, List.map_drop, List.map_take]
  exact loopSum_joined hw _ _ _ _ (by simpa using hc.1) (by simpa using hc.2.1)

theorem combine_length (tie : Nat × Nat → Nat × Nat → Bool) (P : Nat → V3 K) (g h : Poly) (hg : g.verts ≠ [])
    (hh : h.verts ≠ []) : (combine tie P g h).verts.length = g.verts.length + h.verts.length + 2 := by
  have hc := closest_spec tie (g.pt P) (h.pt P) _ _ (List.length_pos_of_ne_nil hg) (List.length_pos_of_ne_nil hh)
  exact joined_length _ _ _ _ hc.1 hc.2.1

theorem addHoles_spec (tie : Nat × Nat → Nat × Nat → Bool) (P : Nat → V3 K) (ax : List Nat → Axis) (o : Bool) (a : Axis)
    (g g' : Poly) (ls : List (List Nat)) (hg : g.verts ≠ []) (hax : ∀ l ∈ ls, ax l = a)
    (h : addHoles tie P ax o g ls = some g') :
    g'.axis = g.axis ∧ g'.reverse = g.reverse ∧ g'.verts ≠ [] ∧
    g'.verts.length = g.verts.length + (ls.map List.length).sum + 2 * ls.length ∧
    (∀ v ∈ g'.verts, v ∈ g.verts ∨ v ∈ ls.flatten) ∧
    ∀ {G : Type} [AddCommGroup G] (w : K × K → K × K → G), (∀ a b, w b a = - w a b) →
      loopSum w (g'.verts.map fun v => proj a (P v)) = loopSum w (g.verts.map fun v => proj a (P v)) +
        (ls.map fun l => loopSum w (towards (holeWant o) (l.map fun v => proj a (P v)))).sum := by
  induction ls generalizing g with
  | nil =>
    simp only [addHoles, Option.some.injEq] at h
    subst h
    refine ⟨rfl, rfl, hg, by simp, fun v hv => Or.inl hv, ?_⟩
    intro G _ w _; simp
  | cons l ls ih =>
    simp only [addHoles, Option.bind_eq_some_iff] at h
    obtain ⟨hp, he, hr⟩ := h
    have hal : ax l = a := hax l (by simp)
    unfold loopPoly at he
    rw [hal] at he
    obtain ⟨hl, hpa, hcase⟩ := orientLoop_spec he
    have hpl : hp.verts.length = l.length := by rcases hcase with h | h <;> simp [h.1]
    have hpv : hp.verts ≠ [] := by
      intro h0; rw [h0] at hpl; exact hl (List.length_eq_zero_iff.1 hpl.symm)
    have hpm : ∀ v ∈ hp.verts, v ∈ l := by rcases hcase with h | h <;> simp [h.1]
    have hcl := combine_length tie P g hp hg hpv
    have hcv : (combine tie P g hp).verts ≠ [] := by
      intro h0; rw [h0] at hcl; simp at hcl
    obtain ⟨h1, h2, h3, h4, h5, h6⟩ := ih (combine tie P g hp) hcv (fun l' h' => hax l' (by simp [h'])) hr
    refine ⟨h1, h2, h3, ?_, ?_, ?_⟩
    · rw [h4, hcl, hpl]; simp only [List.map_cons, List.sum_cons, List.length_cons]; omega
    · intro v hv
      rcases h5 v hv with h | h
      · rcases joined_mem h with h | h
        · exact Or.inl h
        · exact Or.inr (by simp [hpm v h])
      · exact Or.inr (by rw [List.flatten_cons]; exact List.mem_append_right _ h)
    · intro G _ w hw
      rw [h6 w hw, combine_sum hw tie P g hp hg hpv, List.map_cons, List.sum_cons, add_assoc]
      congr 2
      unfold towards
      rcases hcase with h | h
      · rw [if_pos h.2.2, h.1]
      · rw [if_neg h.2.2, h.1, List.map_reverse]

theorem generalPoly_spec {tie : Nat × Nat → Nat × Nat → Bool} {P : Nat → V3 K} {ax : List Nat → Axis} {o : Bool} {a : Axis}
    {l : List Nat} {ls : List (List Nat)} {g : Poly} (hax : ∀ l' ∈ l :: ls, ax l' = a)
    (h : generalPoly tie P ax o (l :: ls) = some g) :
    g.axis = a ∧ g.verts ≠ [] ∧ g.orient = dir (g.verts.map fun v => proj a (P v)) ∧
    (g.reverse = true ↔ dir (l.map fun v => proj a (P v)) ≠ outerWant o) ∧
    g.verts.length = l.length + (ls.map List.length).sum + 2 * ls.length ∧
    (∀ v ∈ g.verts, v ∈ (l :: ls).flatten) ∧
    ∀ {G : Type} [AddCommGroup G] (w : K × K → K × K → G), (∀ a b, w b a = - w a b) →
      loopSum w (g.verts.map fun v => proj a (P v)) = loopSum w (towards (outerWant o) (l.map fun v => proj a (P v))) +
        (ls.map fun l => loopSum w (towards (holeWant o) (l.map fun v => proj a (P v)))).sum := by
  simp only [generalPoly, Option.bind_eq_some_iff] at h
  obtain ⟨g0, h0, g1, h1, h2⟩ := h
  have hal : ax l = a := hax l (by simp)
  unfold loopPoly at h0
  rw [hal] at h0
  obtain ⟨hl, hga, hcase⟩ := orientLoop_spec h0
  have hgl : g0.verts.length = l.length := by rcases hcase with h | h <;> simp [h.1]
  have hgv : g0.verts ≠ [] := by
    intro h0; rw [h0] at hgl; exact hl (List.length_eq_zero_iff.1 hgl.symm)
  have hgm : ∀ v ∈ g0.verts, v ∈ l := by rcases hcase with h | h <;> simp [h.1]
  obtain ⟨k1, k2, k3, k4, k5, k6⟩ := addHoles_spec tie P ax o a g0 g1 ls hgv (fun l' h' => hax l' (by simp [h'])) h1
  rw [calcOrientation_eq P g1 k3] at h2
  cases h2
  have hax1 : g1.axis = a := k1.trans hga
  refine ⟨hax1, k3, by dsimp only; rw [hax1], ?_, by dsimp only; rw [k4, hgl], ?_, ?_⟩
  · dsimp only; rw [k2]
    rcases hcase with h | h
    · simp [h.2.1, h.2.2]
    · simp [h.2.1, h.2.2]
  · intro v hv
    rw [List.flatten_cons, List.mem_append]
    rcases k5 v hv with h | h
    · exact Or.inl (hgm v h)
    · exact Or.inr h
  · intro G _ w hw
    dsimp only
    rw [k6 w hw]
    congr 2
    unfold towards
    rcases hcase with h | h
    · rw [if_pos h.2.2, h.1]
    · rw [if_neg h.2.2, h.1, List.map_reverse]

/-- The loop in the direction against that of the first one. -/
def against (l0 l : List (K × K)) : List (K × K) :=
  if (0 ≤ loopSum cross l0 ↔ 0 ≤ loopSum cross l) then l.reverse else l

theorem emit_corners (P : Nat → V3 K) (g : Poly) (t : Nat × Nat × Nat) :
    corners (fun v => proj g.axis (P v)) (emit g t) =
      if g.reverse then (g.pt P t.2.2, g.pt P t.2.1, g.pt P t.1) else (g.pt P t.1, g.pt P t.2.1, g.pt P t.2.2) := by
  unfold emit corners Poly.pt
  split_ifs <;> rfl

theorem sum_neg' {G : Type} [AddCommGroup G] {α : Type} (f : α → G) (l : List α) :
    (l.map fun x => - f x).sum = - (l.map f).sum := by
  induction l with
  | nil => simp
  | cons a l ih => simp only [List.map_cons, List.sum_cons, ih]; abel

theorem general_sum {tie : Nat × Nat → Nat × Nat → Bool} {P : Nat → V3 K} {ax : List Nat → Axis} {o : Bool} {a : Axis}
    {l : List Nat} {ls : List (List Nat)} {g : Poly} (hax : ∀ l' ∈ l :: ls, ax l' = a)
    (h : generalPoly tie P ax o (l :: ls) = some g) {G : Type} [AddCommGroup G] (w : K × K → K × K → G)
    (hw : ∀ a b, w b a = - w a b) :
    (if g.reverse then - loopSum w (g.verts.map fun v => proj a (P v)) else loopSum w (g.verts.map fun v => proj a (P v)))
      = loopSum w (l.map fun v => proj a (P v)) +
        (ls.map fun l' => loopSum w (against (l.map fun v => proj a (P v)) (l'.map fun v => proj a (P v)))).sum := by
  obtain ⟨_, _, _, hrev, _, _, hs⟩ := generalPoly_spec hax h
  rw [hs w hw]
  have hdir : ∀ q : List (K × K), dir q = .acw ∨ dir q = .cw := by
    intro q; unfold dir; split_ifs <;> simp
  have hag : ∀ q q' : List (K × K), against q q' = if dir q = dir q' then q'.reverse else q' := by
    intro q q'
    unfold against dir
    by_cases h1 : 0 ≤ loopSum cross q <;> by_cases h2 : 0 ≤ loopSum cross q' <;> simp [h1, h2]
  by_cases hr : g.reverse = true
  · have hne := hrev.1 hr
    rw [if_pos hr]
    unfold towards
    rw [if_neg hne, loopSum_reverse hw, neg_add, neg_neg, ← sum_neg']
    congr 2
    apply List.map_congr_left
    intro l' _
    rw [hag]
    rcases hdir (l.map fun v => proj a (P v)) with e | e <;> rcases hdir (l'.map fun v => proj a (P v)) with e' | e' <;>
      cases o <;> simp [e, e', outerWant, holeWant, loopSum_reverse hw] at hne ⊢
  · have he : dir (l.map fun v => proj a (P v)) = outerWant o := by
      by_contra hc; exact hr (hrev.2 hc)
    rw [if_neg hr]
    unfold towards
    rw [if_pos he]
    congr 2
    apply List.map_congr_left
    intro l' _
    rw [hag]
    rcases hdir (l.map fun v => proj a (P v)) with e | e <;> rcases hdir (l'.map fun v => proj a (P v)) with e' | e' <;>
      cases o <;> simp [e, e', outerWant, holeWant, loopSum_reverse hw] at he ⊢

theorem triSum_rev {G : Type} [AddCommGroup G] {α : Type} {w : α → α → G} (hw : ∀ a b, w b a = - w a b) (x y z : α) :
    triSum w (z, y, x) = - triSum w (x, y, z) := by
  unfold triSum
  dsimp only
  rw [hw y z, hw x y, hw z x]; abel

theorem triangulate_sum {P : Nat → V3 K} {g : Poly} (h3 : 3 ≤ g.verts.length)
    (hc : (triangulate P g).length + 2 = g.verts.length) {G : Type} [AddCommGroup G] (w : K × K → K × K → G)
    (hw : ∀ a b, w b a = - w a b) :
    ((triangulate P g).map fun t => triSum w (corners (fun v => proj g.axis (P v)) t)).sum =
      (if g.reverse then - loopSum w (g.verts.map fun v => proj g.axis (P v))
       else loopSum w (g.verts.map fun v => proj g.axis (P v))) := by
  have hcl : (clip (g.pt P) g.orient (g.verts.length - 3) (List.range g.verts.length)).length = g.verts.length - 3 + 1 := by
    simp only [triangulate, List.length_map] at hc; omega
  have hs := clip_sum (fun i j => w (g.pt P i) (g.pt P j)) (fun i j => hw _ _) (g.pt P) g.orient (g.verts.length - 3)
    (List.range g.verts.length) (by simp; omega) hcl
  rw [← loopSum_map, pt_map] at hs
  unfold triangulate
  rw [List.map_map, ← hs]
  by_cases hr : g.reverse = true
  · rw [if_pos hr, ← sum_neg']
    congr 1
    apply List.map_congr_left
    intro t _
    simp only [Function.comp_apply]
    rw [emit_corners, if_pos hr, triSum_rev hw]
    rfl
  · rw [if_neg hr]
    congr 1
    apply List.map_congr_left
    intro t _
    simp only [Function.comp_apply]
    rw [emit_corners, if_neg hr]
    rfl

end Join

/-! ## Points in triangles -/

section Ray

variable {K : Type} [Field K] [LinearOrder K] [IsStrictOrderedRing K]

omit [IsStrictOrderedRing K] in
theorem ray_anti (p a b : K × K) : ray p b a = - ray p a b := by
  unfold ray
  by_cases h1 : a.2 ≤ p.2 ∧ p.2 < b.2
  · have h2 : ¬ (b.2 ≤ p.2 ∧ p.2 < a.2) := fun h => absurd (h.1.trans_lt h1.2) (lt_irrefl _)
    rw [if_neg h2, if_pos h1, if_pos h1]
    split_ifs <;> rfl
  · by_cases h2 : b.2 ≤ p.2 ∧ p.2 < a.2
    · rw [if_pos h2, if_neg h1, if_pos h2]
      split_ifs <;> rfl
    · rw [if_neg h2, if_neg h1, if_neg h1, if_neg h2]; rfl

/-- The sign of a triangle at a point. -/
def sideSum (x y z : K) : Int :=
  if 0 < x ∧ 0 < y ∧ 0 < z then 1 else if x < 0 ∧ y < 0 ∧ z < 0 then -1 else 0

theorem triSum_ray (p a b c : K × K) (h1 : det a b p ≠ 0) (h2 : det b c p ≠ 0) (h3 : det c a p ≠ 0) :
    triSum (ray p) (a, b, c) = sideSum (det a b p) (det b c p) (det c a p) := by
  have key : det b c p * (a.2 - p.2) + det c a p * (b.2 - p.2) + det a b p * (c.2 - p.2) = 0 := by
    unfold det; ring
  have flat0 : a.2 = p.2 → b.2 = p.2 → det a b p = 0 := by
    intro ha hb; unfold det; rw [ha, hb]; ring
  have e1 : det b a p = - det a b p := det_swap a b p
  have e2 : det c b p = - det b c p := det_swap b c p
  have e3 : det a c p = - det c a p := det_swap c a p
  unfold triSum ray sideSum
  dsimp only
  rw [e1, e2, e3]
  generalize det a b p = x at *
  generalize det b c p = y at *
  generalize det c a p = z at *
  have sg : ∀ u : K, u ≠ 0 → (u < 0 ∧ ¬ 0 < u) ∨ (0 < u ∧ ¬ u < 0) := by
    intro u hu
    rcases lt_or_gt_of_ne hu with h | h
    · exact Or.inl ⟨h, not_lt.2 h.le⟩
    · exact Or.inr ⟨h, not_lt.2 h.le⟩
  have sl : ∀ u v : K, (u ≤ v ∧ ¬ v < u) ∨ (v < u ∧ ¬ u ≤ v) := by
    intro u v
    rcases le_or_gt u v with h | h
    · exact Or.inl ⟨h, not_lt.2 h⟩
    · exact Or.inr ⟨h, not_le.2 h⟩
  rcases sg x h1 with ⟨s1, n1⟩ | ⟨s1, n1⟩ <;> rcases sg y h2 with ⟨s2, n2⟩ | ⟨s2, n2⟩ <;>
  rcases sg z h3 with ⟨s3, n3⟩ | ⟨s3, n3⟩ <;> rcases sl a.2 p.2 with ⟨ha, ma⟩ | ⟨ha, ma⟩ <;>
  rcases sl b.2 p.2 with ⟨hb, mb⟩ | ⟨hb, mb⟩ <;> rcases sl c.2 p.2 with ⟨hc, mc⟩ | ⟨hc, mc⟩ <;>
  simp only [s1, n1, s2, n2, s3, n3, ha, ma, hb, mb, hc, mc, Left.neg_pos_iff, and_true, and_false, true_and, false_and,
    and_self, if_true, if_false] <;>
  first
  | rfl
  | (exfalso; nlinarith)
  | (exfalso
     refine h1 (flat0 (le_antisymm ha ?_) (le_antisymm hb ?_))
     · by_contra hlt; rw [not_le] at hlt; nlinarith
     · by_contra hlt; rw [not_le] at hlt; nlinarith)

end Ray

/-! ## Convex polygons -/

section Convex

variable {K : Type} [Field K] [LinearOrder K] [IsStrictOrderedRing K]

theorem orientOf_acw {d : K} : orientOf d = .acw ↔ 0 < d := by
  unfold orientOf
  by_cases h : 0 < d
  · simp [h]
  · by_cases h0 : d = 0 <;> simp [h, h0]

theorem orientOf_cw {d : K} : orientOf d = .cw ↔ d < 0 := by
  unfold orientOf
  by_cases h : 0 < d
  · simp [h, not_lt.2 h.le]
  · by_cases h0 : d = 0
    · simp [h0]
    · simp only [h, h0, if_false, true_iff]
      exact lt_of_le_of_ne (not_lt.1 h) h0

/-- The other direction. -/
def Orient.flip : Orient → Orient
  | .unknown => .unknown
  | .cw => .acw
  | .acw => .cw

theorem orientOf_neg (d : K) : orientOf (-d) = (orientOf d).flip := by
  rcases lt_trichotomy d 0 with h | h | h
  · rw [orientOf_cw.2 h, orientOf_acw.2 (by linarith)]; rfl
  · subst h; simp [orientOf, Orient.flip]
  · rw [orientOf_acw.2 h, orientOf_cw.2 (by linarith)]; rfl

theorem Turns.reverse {d : Orient} {q : List (K × K)} (h : Turns d q) : Turns d.flip q.reverse := by
  intro a b c habc
  have : [c, b, a].Sublist q := by
    have := List.reverse_sublist.2 habc
    simpa using this
  rw [← h c b a this, ← orientOf_neg, ← det_rev c b a]

theorem sum_pos' {l : List K} (hl : l ≠ []) (h : ∀ x ∈ l, 0 < x) : 0 < l.sum := by
  induction l with
  | nil => exact absurd rfl hl
  | cons a l ih =>
    rw [List.sum_cons]
    have ha := h a (by simp)
    by_cases h0 : l = []
    · subst h0; simpa using ha
    · have := ih h0 (fun x hx => h x (by simp [hx]))
      linarith

theorem Turns.dir {d : Orient} {q : List (K × K)} (h : Turns d q) (h3 : 3 ≤ q.length) (hd : d ≠ .unknown) : dir q = d := by
  have hm : (List.range q.length).map (fun i => q.getD i (0, 0)) = q := by
    apply List.ext_getElem
    · simp
    · intro i h1 h2; simp [List.getD_eq_getElem?_getD, h2]
  obtain ⟨hc, hall⟩ := clip_convex (fun i => q.getD i (0, 0)) d (q.length - 3) (List.range q.length) (by simp; omega)
    (by rw [hm]; exact h)
  have hs := clip_sum (fun i j => cross (q.getD i (0, 0)) (q.getD j (0, 0))) (fun i j => cross_anti _ _) _ _ _ _
    (by simp; omega) hc
  rw [← loopSum_map (fun i => q.getD i (0, 0)), hm] at hs
  have hne : (clip (fun i => q.getD i (0, 0)) d (q.length - 3) (List.range q.length)) ≠ [] := by
    intro h0; rw [h0] at hc; simp at hc
  have htri : ∀ t : Nat × Nat × Nat, triSum (fun i j => cross (q.getD i (0, 0)) (q.getD j (0, 0))) t
      = det (q.getD t.1 (0, 0)) (q.getD t.2.1 (0, 0)) (q.getD t.2.2 (0, 0)) := by
    intro t; exact triSum_cross (q.getD t.1 (0, 0), q.getD t.2.1 (0, 0), q.getD t.2.2 (0, 0))
  unfold GenPoly.dir
  rw [← hs]
  cases d with
  | unknown => exact absurd rfl hd
  | acw =>
    rw [if_pos]
    refine (sum_pos' (by simpa using hne) ?_).le
    intro x hx
    obtain ⟨t, ht, rfl⟩ := List.mem_map.1 hx
    rw [htri]; exact orientOf_acw.1 (hall t ht)
  | cw =>
    rw [if_neg]
    rw [not_le, ← neg_pos, ← sum_neg']
    refine sum_pos' (by simpa using hne) ?_
    intro x hx
    obtain ⟨t, ht, rfl⟩ := List.mem_map.1 hx
    rw [htri]
    have := orientOf_cw.1 (hall t ht)
    linarith

end Convex

/-! ## The axis -/

section AxisLemmas

variable {K : Type} [Field K] [LinearOrder K] [IsStrictOrderedRing K]

omit [IsStrictOrderedRing K] in
theorem searchNormal_found (l : List (V3 K)) (n : V3 K) (m : K) (hm : 1 / 1000000 ≤ m → m = maxComp n)
    (h : 1 / 1000000 ≤ m ∨ ∃ pre a b c post, l = pre ++ a :: b :: c :: post ∧ 1 / 1000000 ≤ maxComp (absNormal a b c)) :
    (searchNormal n m l = n ∧ 1 / 1000000 ≤ m) ∨
    ∃ pre a b c post, l = pre ++ a :: b :: c :: post ∧ searchNormal n m l = absNormal a b c ∧
      1 / 1000000 ≤ maxComp (absNormal a b c) := by
  induction l generalizing n m with
  | nil =>
    rcases h with h | ⟨pre, a, b, c, post, h, _⟩
    · exact Or.inl ⟨rfl, h⟩
    · simp at h
  | cons a l ih =>
    by_cases hlt : m < 1 / 1000000
    · rcases h with h | ⟨pre, a', b, c, post, h, hc⟩
      · exact absurd h (not_le.2 hlt)
      · right
        match l, h, ih with
        | [], h, _ => rcases pre with _ | ⟨_, pre⟩ <;> simp at h
        | [x], h, _ =>
          rcases pre with _ | ⟨_, pre⟩
          · simp at h
          · rcases pre with _ | ⟨_, pre⟩ <;> simp at h
        | x :: y :: t, h, ih =>
          have hstep : searchNormal n m (a :: x :: y :: t)
              = searchNormal (absNormal a x y) (maxComp (absNormal a x y)) (x :: y :: t) := by
            show (if m < 1 / 1000000 then _ else _) = _
            rw [if_pos hlt]
          rw [hstep]
          rcases ih (absNormal a x y) (maxComp (absNormal a x y)) (fun _ => rfl) (by
            cases pre with
            | nil =>
              simp only [List.nil_append, List.cons.injEq] at h
              obtain ⟨rfl, rfl, rfl, rfl⟩ := h
              exact Or.inl hc
            | cons z pre =>
              simp only [List.cons_append, List.cons.injEq] at h
              exact Or.inr ⟨pre, a', b, c, post, h.2, hc⟩) with ⟨e, hle⟩ | ⟨pre', u, v, w', post', e, e2, hle⟩
          · exact ⟨[], a, x, y, t, rfl, e, hle⟩
          · exact ⟨a :: pre', u, v, w', post', by rw [e]; rfl, e2, hle⟩
    · left
      refine ⟨?_, not_lt.1 hlt⟩
      match l with
      | [] => rfl
      | [x] => rfl
      | x :: y :: t =>
        show (if m < 1 / 1000000 then _ else _) = _
        rw [if_neg hlt]

end AxisLemmas

/-! ## Face varying values -/

theorem filter_places (mid : List Nat) (v : Nat) (hv : v ∈ mid) (hn : mid.Nodup) :
    ((List.range mid.length).filter fun i => mid.getD i 0 == v) = [mid.idxOf v] := by
  induction mid with
  | nil => simp at hv
  | cons m ms ih =>
    rw [List.length_cons, List.range_succ_eq_map, List.filter_cons]
    rw [List.nodup_cons] at hn
    by_cases hm : m = v
    · subst hm
      have : (List.map Nat.succ (List.range ms.length)).filter (fun i => (m :: ms).getD i 0 == m) = [] := by
        rw [List.filter_eq_nil_iff]
        intro i hi
        obtain ⟨j, hj, rfl⟩ := List.mem_map.1 hi
        rw [List.mem_range] at hj
        simp only [List.getD_eq_getElem?_getD, Nat.succ_eq_add_one, List.getElem?_cons_succ, List.getElem?_eq_getElem hj,
          Option.getD_some, beq_iff_eq]
        intro h; exact hn.1 (h ▸ List.getElem_mem hj)
      rw [this]; simp
    · have hv' : v ∈ ms := by
        rcases List.mem_cons.1 hv with h | h
        · exact absurd h.symm hm
        · exact h
      rw [if_neg (by simpa using hm), List.filter_map]
      have : ((fun i => (m :: ms).getD i 0 == v) ∘ Nat.succ) = fun i => ms.getD i 0 == v := by
        funext i; simp [List.getD_eq_getElem?_getD]
      rw [this, ih hv' hn.2, List.idxOf_cons_ne _ hm]
      rfl

theorem fvPlaces_eq (pre mid post : List Nat) (v : Nat) (hv : v ∈ mid) (hn : mid.Nodup) :
    fvPlaces (pre ++ mid ++ post) pre.length (pre.length + mid.length) v = [pre.length + mid.idxOf v] := by
  unfold fvPlaces
  rw [Nat.add_sub_cancel_left, List.range'_eq_map_range, List.filter_map]
  have : ((List.range mid.length).filter
      ((fun iv => (pre ++ mid ++ post).getD iv 0 == v) ∘ fun x => pre.length + x))
      = (List.range mid.length).filter fun i => mid.getD i 0 == v := by
    apply List.filter_congr
    intro i hi
    rw [List.mem_range] at hi
    simp only [Function.comp_apply, List.getD_eq_getElem?_getD, List.append_assoc]
    rw [List.getElem?_append_right (by omega), Nat.add_sub_cancel_left, List.getElem?_append_left hi]
  rw [this, filter_places mid v hv hn]
  rfl

section Total

variable {K : Type} [Field K] [LinearOrder K]

theorem addHoles_some (tie : Nat × Nat → Nat × Nat → Bool) (P : Nat → V3 K) (ax : List Nat → Axis) (o : Bool)
    (ls : List (List Nat)) (h : ∀ l ∈ ls, l ≠ []) (g : Poly) : ∃ g', addHoles tie P ax o g ls = some g' := by
  induction ls generalizing g with
  | nil => exact ⟨g, rfl⟩
  | cons l ls ih =>
    obtain ⟨hp, e, _⟩ := orientLoop_eq P (holeWant o) l (ax l) (h l (by simp))
    obtain ⟨g', e'⟩ := ih (fun l' h' => h l' (by simp [h'])) (combine tie P g hp)
    exact ⟨g', by simp only [addHoles, loopPoly, e, Option.bind_some, e']⟩

theorem addHoles_ne {tie : Nat × Nat → Nat × Nat → Bool} {P : Nat → V3 K} {ax : List Nat → Axis} {o : Bool}
    {ls : List (List Nat)} {g g' : Poly} (hg : g.verts ≠ []) (h : addHoles tie P ax o g ls = some g') :
    g'.verts ≠ [] ∧ ∀ v ∈ g'.verts, v ∈ g.verts ∨ v ∈ ls.flatten := by
  induction ls generalizing g with
  | nil =>
    simp only [addHoles, Option.some.injEq] at h
    subst h; exact ⟨hg, fun v hv => Or.inl hv⟩
  | cons l ls ih =>
    simp only [addHoles, Option.bind_eq_some_iff] at h
    obtain ⟨hp, he, hr⟩ := h
    unfold loopPoly at he
    obtain ⟨hl, hpa, hcase⟩ := orientLoop_spec he
    have hpl : hp.verts.length = l.length := by rcases hcase with h | h <;> simp [h.1]
    have hpv : hp.verts ≠ [] := by
      intro h0; rw [h0] at hpl; exact hl (List.length_eq_zero_iff.1 hpl.symm)
    have hpm : ∀ v ∈ hp.verts, v ∈ l := by rcases hcase with h | h <;> simp [h.1]
    have hcl := combine_length tie P g hp hg hpv
    have hcv : (combine tie P g hp).verts ≠ [] := by
      intro h0; rw [h0] at hcl; simp at hcl
    obtain ⟨k1, k2⟩ := ih hcv hr
    refine ⟨k1, ?_⟩
    intro v hv
    rcases k2 v hv with h | h
    · rcases joined_mem h with h | h
      · exact Or.inl h
      · exact Or.inr (by simp [hpm v h])
    · exact Or.inr (by rw [List.flatten_cons]; exact List.mem_append_right _ h)

theorem generalPoly_some (tie : Nat × Nat → Nat × Nat → Bool) (P : Nat → V3 K) (ax : List Nat → Axis) (o : Bool)
    (loops : List (List Nat)) (h0 : loops ≠ []) (h : ∀ l ∈ loops, l ≠ []) :
    ∃ g, generalPoly tie P ax o loops = some g ∧ ∀ v ∈ g.verts, v ∈ loops.flatten := by
  match loops, h0 with
  | l :: ls, _ =>
    obtain ⟨g, e, _, hcase⟩ := orientLoop_eq P (outerWant o) l (ax l) (h l (by simp))
    have hl := h l (by simp)
    have hgl : g.verts.length = l.length := by rcases hcase with h | h <;> simp [h.1]
    have hgv : g.verts ≠ [] := by
      intro h0; rw [h0] at hgl; exact hl (List.length_eq_zero_iff.1 hgl.symm)
    have hgm : ∀ v ∈ g.verts, v ∈ l := by rcases hcase with h | h <;> simp [h.1]
    obtain ⟨g', e'⟩ := addHoles_some tie P ax o ls (fun l' h' => h l' (by simp [h'])) g
    obtain ⟨k1, k2⟩ := addHoles_ne hgv e'
    refine ⟨_, by simp only [generalPoly, loopPoly, e, Option.bind_some, e', calcOrientation_eq P g' k1]; rfl, ?_⟩
    intro v hv
    rw [List.flatten_cons, List.mem_append]
    rcases k2 v hv with h | h
    · exact Or.inl (hgm v h)
    · exact Or.inr h

theorem triangulate_mem (P : Nat → V3 K) (g : Poly) (h3 : 3 ≤ g.verts.length) :
    ∀ t ∈ triangulate P g, t.1 ∈ g.verts ∧ t.2.1 ∈ g.verts ∧ t.2.2 ∈ g.verts := by
  intro t ht
  obtain ⟨t', ht', rfl⟩ := List.mem_map.1 ht
  have hm := clip_mem (g.pt P) g.orient (g.verts.length - 3) (List.range g.verts.length) (by simp; omega) t' ht'
  simp only [List.mem_range] at hm
  have hmem : ∀ i < g.verts.length, g.verts.getD i 0 ∈ g.verts := by
    intro i hi
    rw [List.getD_eq_getElem?_getD, List.getElem?_eq_getElem hi]; exact List.getElem_mem hi
  unfold emit
  split_ifs
  · exact ⟨hmem _ hm.2.2, hmem _ hm.2.1, hmem _ hm.1⟩
  · exact ⟨hmem _ hm.1, hmem _ hm.2.1, hmem _ hm.2.2⟩

theorem triangulate_short (P : Nat → V3 K) (g : Poly) (h3 : g.verts.length < 3) : triangulate P g = [] := by
  have : g.verts.length - 3 = 0 := by omega
  unfold triangulate
  rw [this]
  unfold clip
  rw [if_neg (by simp; omega)]; rfl

theorem generalTris_mem {tie : Nat × Nat → Nat × Nat → Bool} {P : Nat → V3 K} {ax : List Nat → Axis} {o : Bool}
    {loops : List (List Nat)} (h0 : loops ≠ []) (h : ∀ l ∈ loops, l ≠ []) :
    ∃ ts, generalTris tie P ax o loops = some ts ∧
      ∀ t ∈ ts, t.1 ∈ loops.flatten ∧ t.2.1 ∈ loops.flatten ∧ t.2.2 ∈ loops.flatten := by
  obtain ⟨g, e, hg⟩ := generalPoly_some tie P ax o loops h0 h
  refine ⟨triangulate P g, by simp only [generalTris, e, Option.map_some], ?_⟩
  intro t ht
  by_cases h3 : 3 ≤ g.verts.length
  · have := triangulate_mem P g h3 t ht
    exact ⟨hg _ this.1, hg _ this.2.1, hg _ this.2.2⟩
  · rw [triangulate_short P g (by omega)] at ht
    simp at ht

end Total

/-! ## Many polygons -/

section Many

variable {K : Type} [Field K] [LinearOrder K]

/-- The values at the corners of the triangles `ts` of each polygon; the values of a polygon are in the order of its loops. -/
def cornerValues {α : Type} (ts : List (List Nat) → List (Nat × Nat × Nat)) :
    List (List (List Nat)) → List α → List (Option α)
  | [], _ => []
  | poly :: rest, vals =>
    (flat (ts poly)).map (fun v => vals[poly.flatten.idxOf v]?) ++ cornerValues ts rest (vals.drop poly.flatten.length)

/-- The places of the corners. -/
def cornerPlaces (ts : List (List Nat) → List (Nat × Nat × Nat)) : Nat → List (List (List Nat)) → List Nat
  | _, [] => []
  | start, poly :: rest =>
    (flat (ts poly)).map (fun v => start + poly.flatten.idxOf v) ++ cornerPlaces ts (start + poly.flatten.length) rest

theorem flat_length (ts : List (Nat × Nat × Nat)) : (flat ts).length = 3 * ts.length := by
  induction ts with
  | nil => rfl
  | cons t ts ih => simp only [flat, List.flatMap_cons, List.length_append, List.length_cons] at ih ⊢; simp at ih ⊢; omega

theorem flatMap_single {α β : Type} (f : α → List β) (g : α → β) (l : List α) (h : ∀ x ∈ l, f x = [g x]) :
    l.flatMap f = l.map g := by
  induction l with
  | nil => rfl
  | cons a l ih =>
    rw [List.flatMap_cons, h a (by simp), ih (fun x hx => h x (by simp [hx]))]; rfl

theorem pgpLoop_eq (tie : Nat × Nat → Nat × Nat → Bool) (P : Nat → V3 K) (o : Bool)
    (ts : List (List Nat) → List (Nat × Nat × Nat)) (polys : List (List (List Nat)))
    (hts : ∀ poly ∈ polys, generalTris tie P (calcAxis P) o poly = some (ts poly))
    (hmem : ∀ poly ∈ polys, ∀ v ∈ flat (ts poly), v ∈ poly.flatten)
    (hnd : ∀ poly ∈ polys, poly.flatten.Nodup) (pre : List Nat) (r : Tris) :
    pgpLoop tie P o (pre ++ polys.flatten.flatten) pre.length r polys =
      some ⟨r.tris ++ polys.flatMap ts, r.fv ++ cornerPlaces ts pre.length polys,
        r.uv ++ polys.map fun poly => (ts poly).length⟩ := by
  induction polys generalizing pre r with
  | nil => simp [pgpLoop, cornerPlaces]
  | cons poly rest ih =>
    have hpl : ∀ v ∈ flat (ts poly), fvPlaces (pre ++ (poly :: rest).flatten.flatten) pre.length
        (pre.length + poly.flatten.length) v = [pre.length + poly.flatten.idxOf v] := by
      intro v hv
      have e : pre ++ (poly :: rest).flatten.flatten = pre ++ poly.flatten ++ rest.flatten.flatten := by
        simp
      rw [e]
      exact fvPlaces_eq _ _ _ v (hmem poly (by simp) v hv) (hnd poly (by simp))
    unfold pgpLoop
    rw [hts poly (by simp), Option.bind_some, if_pos]
    · rw [flatMap_single _ _ _ hpl]
      have e : pre ++ (poly :: rest).flatten.flatten = (pre ++ poly.flatten) ++ rest.flatten.flatten := by
        simp
      have el : pre.length + poly.flatten.length = (pre ++ poly.flatten).length := by simp
      rw [e, el, ih (fun p hp => hts p (by simp [hp])) (fun p hp => hmem p (by simp [hp]))
        (fun p hp => hnd p (by simp [hp]))]
      simp [cornerPlaces, List.flatMap_cons]
    · rw [List.all_eq_true]
      intro v hv
      rw [hpl v hv]; rfl

theorem cornerPlaces_length (ts : List (List Nat) → List (Nat × Nat × Nat)) (start : Nat) (polys : List (List (List Nat))) :
    (cornerPlaces ts start polys).length = 3 * (polys.flatMap ts).length := by
  induction polys generalizing start with
  | nil => rfl
  | cons poly rest ih =>
    simp only [cornerPlaces, List.length_append, List.length_map, flat_length, ih, List.flatMap_cons]; omega

theorem fvValues_places {α : Type} (ts : List (List Nat) → List (Nat × Nat × Nat)) (polys : List (List (List Nat)))
    (start : Nat) (vals : List α) :
    fvValues (cornerPlaces ts start polys) vals = cornerValues ts polys (vals.drop start) := by
  induction polys generalizing start with
  | nil => rfl
  | cons poly rest ih =>
    have := ih (start + poly.flatten.length)
    simp only [fvValues, cornerPlaces, cornerValues, List.map_append, List.map_map] at this ⊢
    rw [this, List.drop_drop]
    congr 1
    apply List.map_congr_left
    intro v _
    simp [List.getElem?_drop]

theorem uniform_zip {α : Type} (ts : List (List Nat) → List (Nat × Nat × Nat)) (polys : List (List (List Nat)))
    (vals : List α) (h : vals.length = polys.length) :
    (polys.flatMap ts).zip (uniformValues (polys.map fun poly => (ts poly).length) vals) =
      (polys.zip vals).flatMap fun pv => (ts pv.1).map fun t => (t, pv.2) := by
  induction polys generalizing vals with
  | nil => cases vals <;> rfl
  | cons poly rest ih =>
    match vals, h with
    | v :: vs, h =>
      rw [List.flatMap_cons, List.map_cons, uniformValues, List.zip_append (by simp), ih vs (by simpa using h),
        List.zip_cons_cons, List.flatMap_cons]
      congr 1
      generalize ts poly = q
      induction q with
      | nil => rfl
      | cons t q ihq => simp only [List.length_cons, List.replicate_succ, List.zip_cons_cons, List.map_cons, ihq]

end Many

end Verif.Geom.GenPoly
