import Verif.Geom.Curves
import Verif.Geom.BicubicProps
import Verif.Geom.HPointLemmas
import Mathlib.Tactic.Linarith
import Mathlib.Tactic.FieldSimp

/-!
Lemmas about curves are split into their pieces
-/

namespace Verif.Geom.Curves

open Verif.Math.Matrix4 (Mat Sound)
open Verif.Geom.Bicubic

namespace Spec

/-- Specification: where the values of curve `c` begin if curve `c` has `f` of its number of vertices. -/
def offset (f : ℕ → ℕ) (ns : List ℕ) (c : ℕ) : ℕ := ((ns.take c).map f).sum

/-- Specification: how many pieces a linear curve has. -/
def linPieces (periodic : Bool) (n : ℕ) : ℕ := if periodic then n else n - 1

/-- Specification: piece `i` of curve `c` of linear curves. -/
def linPiece (periodic : Bool) (ns : List ℕ) (c i : ℕ) : LinSeg :=
  ⟨(offset id ns c + i : ℕ), (offset id ns c + (i + 1) % (ns.getD c 0) : ℕ), c,
    (i : ℚ) / linPieces periodic (ns.getD c 0), ((i : ℚ) + 1) / linPieces periodic (ns.getD c 0)⟩

/-- Specification: the pieces of linear curves, in order. -/
def linPiecesOf (periodic : Bool) (ns : List ℕ) : List LinSeg :=
  (List.range ns.length).flatMap fun c => (List.range (linPieces periodic (ns.getD c 0))).map (linPiece periodic ns c)

/-- Specification: how many pieces a cubic curve has: a piece takes four vertices and begins `step` after the one before. -/
def cubPieces (step : ℕ) (periodic : Bool) (n : ℕ) : ℕ := if periodic then n / step else (n - 4) / step + 1

/-- Specification: how many varying values a cubic curve has. -/
def cubVarying (step : ℕ) (periodic : Bool) (n : ℕ) : ℕ := if periodic then cubPieces step periodic n else cubPieces step periodic n + 1

/-- Specification: piece `i` of curve `c` of cubic curves, when each piece has four vertices of its own. -/
def cubPiece (step : ℕ) (periodic : Bool) (ns : List ℕ) (c i : ℕ) : CubSeg :=
  let v := offset (fun n => 4 * cubPieces step periodic n) ns c + 4 * i
  let o := offset (cubVarying step periodic) ns c
  let n := ns.getD c 0
  ⟨v, (v + 1 : ℕ), (v + 2 : ℕ), (v + 3 : ℕ), (o + i : ℕ), (o + (i + 1) % cubVarying step periodic n : ℕ), c,
    (i : ℚ) / cubPieces step periodic n, ((i : ℚ) + 1) / cubPieces step periodic n⟩

/-- Specification: the pieces of cubic curves, in order. -/
def cubPiecesOf (step : ℕ) (periodic : Bool) (ns : List ℕ) : List CubSeg :=
  (List.range ns.length).flatMap fun c => (List.range (cubPieces step periodic (ns.getD c 0))).map (cubPiece step periodic ns c)

end Spec

open Spec

theorem offset_zero (f : ℕ → ℕ) (ns : List ℕ) : offset f ns 0 = 0 := by simp [offset]

theorem offset_succ (f : ℕ → ℕ) (n : ℕ) (ns : List ℕ) (c : ℕ) : offset f (n :: ns) (c + 1) = f n + offset f ns c := by
  simp [offset]

/-! ## Linear curves -/

theorem linCurve_eq (n first uniform last : Int) : ∀ (k : ℕ) (segI vertexI : Int),
    linCurve n first uniform last k segI vertexI =
      ((List.range k).map fun j : ℕ => (⟨vertexI + j, if segI + j = n - 1 then first else vertexI + j + 1, uniform,
        ((segI + j : ℤ) : ℚ) / (last : ℚ), ((segI + j : ℤ) + 1 : ℚ) / (last : ℚ)⟩ : LinSeg), vertexI + k) := by
  intro k
  induction k with
  | zero => intro segI vertexI; simp [linCurve]
  | succ k ih =>
    intro segI vertexI
    unfold linCurve
    simp only [ih, List.range_succ_eq_map, List.map_cons, List.map_map]
    refine Prod.ext ?_ ?_
    · simp only [List.cons.injEq]
      refine ⟨by simp, ?_⟩
      apply List.map_congr_left
      intro j _
      simp only [Function.comp, Nat.succ_eq_add_one]
      push_cast
      have e1 : segI + 1 + (j : ℤ) = segI + ((j : ℤ) + 1) := by ring
      have e2 : vertexI + 1 + (j : ℤ) = vertexI + ((j : ℤ) + 1) := by ring
      have e3 : (segI : ℚ) + 1 + (j : ℚ) = segI + ((j : ℚ) + 1) := by ring
      rw [e1, e2, e3]
    · push_cast; ring

theorem linGroup_eq (periodic : Bool) : ∀ (ns : List ℕ) (_ : ∀ n ∈ ns, 1 ≤ n) (v u : ℕ),
    linGroup periodic (ns.map Int.ofNat) v u =
      (List.range ns.length).flatMap fun c => (List.range (linPieces periodic (ns.getD c 0))).map fun i : ℕ =>
        (⟨(v + offset id ns c + i : ℕ), (v + offset id ns c + (i + 1) % (ns.getD c 0) : ℕ), (u + c : ℕ),
          (i : ℚ) / linPieces periodic (ns.getD c 0), ((i : ℚ) + 1) / linPieces periodic (ns.getD c 0)⟩ : LinSeg) := by
  intro ns
  induction ns with
  | nil => intro _ v u; simp [linGroup]
  | cons n ns ih =>
    intro h v u
    have hn : 1 ≤ n := h n (by simp)
    have hl : lastSegment periodic (n : ℤ) = (linPieces periodic n : ℕ) := by
      unfold lastSegment linPieces
      split
      · rfl
      · omega
    have hnext : (if periodic then (v : ℤ) + (linPieces periodic n : ℕ) else (v : ℤ) + (linPieces periodic n : ℕ) + 1) = ((v + n : ℕ) : ℤ) := by
      unfold linPieces
      cases periodic <;> simp <;> omega
    have e : linGroup periodic ((n :: ns).map Int.ofNat) v u =
        (linCurve n v u (lastSegment periodic n) (lastSegment periodic (n : ℤ)).toNat 0 v).1 ++
        linGroup periodic (ns.map Int.ofNat)
          (if periodic then (linCurve n v u (lastSegment periodic n) (lastSegment periodic (n : ℤ)).toNat 0 v).2
            else (linCurve n v u (lastSegment periodic n) (lastSegment periodic (n : ℤ)).toNat 0 v).2 + 1) ((u : ℤ) + 1) := rfl
    rw [e, linCurve_eq, hl, Int.toNat_natCast]
    beta_reduce
    show _ ++ linGroup periodic _ (if periodic then (v : ℤ) + (linPieces periodic n : ℕ) else (v : ℤ) + (linPieces periodic n : ℕ) + 1) _ = _
    rw [hnext, show (u : ℤ) + 1 = ((u + 1 : ℕ) : ℤ) by push_cast; rfl, ih (fun m hm => h m (by simp [hm]))]
    rw [List.length_cons, List.range_succ_eq_map, List.flatMap_cons, List.flatMap_map]
    congr 1
    · apply List.map_congr_left
      intro j hj
      rw [List.mem_range] at hj
      simp only [List.getD_cons_zero, offset_zero]
      have hj2 : j < n := by unfold linPieces at hj; split at hj <;> omega
      have hmod : (if (0 : ℤ) + j = n - 1 then (v : ℤ) else v + j + 1) = ((v + 0 + (j + 1) % n : ℕ) : ℤ) := by
        split_ifs with hc
        · have : j + 1 = n := by omega
          rw [this, Nat.mod_self]; simp
        · rw [Nat.mod_eq_of_lt (by omega)]; push_cast; ring
      rw [hmod]
      simp
    · congr 1
      funext c
      simp only [List.getD_cons_succ, Nat.succ_eq_add_one, offset_succ, id]
      apply List.map_congr_left
      intro j _
      simp only [LinSeg.mk.injEq, and_true]
      refine ⟨?_, ?_, ?_⟩ <;> push_cast <;> ring

/-! ## Cubic curves -/

theorem segments_eq (n step : ℕ) (periodic : Bool) (hn : periodic = false → 4 ≤ n) :
    segmentsPerCurve n step periodic = (cubPieces step periodic n : ℕ) := by
  unfold segmentsPerCurve cubPieces
  cases periodic with
  | true => simp [Int.tdiv_eq_ediv_of_nonneg]
  | false =>
    have := hn rfl
    simp only [Bool.false_eq_true, if_false]
    rw [show ((n : ℤ) - 4) = ((n - 4 : ℕ) : ℤ) by omega, Int.tdiv_eq_ediv_of_nonneg (by omega)]
    push_cast; rfl

theorem tmod_cast (a n : ℕ) : ((a : ℤ)).tmod n = ((a % n : ℕ) : ℤ) := by
  rw [Int.tmod_eq_emod_of_nonneg (by omega)]; push_cast; rfl

theorem cubCurve_eq (s nv vs vas u : ℕ) : ∀ (k i : ℕ), cubCurve s nv vs vas u k i i =
    (List.range k).map fun j : ℕ => (⟨(vs + 4 * (i + j) : ℕ), (vs + 4 * (i + j) + 1 : ℕ), (vs + 4 * (i + j) + 2 : ℕ), (vs + 4 * (i + j) + 3 : ℕ),
      (vas + (i + j) % nv : ℕ), (vas + (i + j + 1) % nv : ℕ), (u : ℕ), ((i + j : ℕ) : ℚ) / s, ((i + j : ℕ) + 1 : ℚ) / s⟩ : CubSeg) := by
  intro k
  induction k with
  | zero => intro i; simp [cubCurve]
  | succ k ih =>
    intro i
    unfold cubCurve
    rw [show (i : ℤ) + 1 = ((i + 1 : ℕ) : ℤ) by push_cast; rfl, ih, List.range_succ_eq_map, List.map_cons, List.map_map]
    congr 1
    · rw [show (i : ℤ) + 0 = ((i : ℕ) : ℤ) by simp, tmod_cast, tmod_cast]
      simp only [CubSeg.mk.injEq, Nat.add_zero]
      refine ⟨?_, ?_, ?_, ?_, ?_, ?_, trivial, ?_, ?_⟩ <;> push_cast <;> ring
    · apply List.map_congr_left
      intro j _
      simp only [Function.comp, Nat.succ_eq_add_one]
      rw [show i + 1 + j = i + (j + 1) by ring]

theorem cubGroup_eq (step : ℕ) (periodic : Bool) : ∀ (ns : List ℕ) (_ : ∀ n ∈ ns, periodic = false → 4 ≤ n) (v w u : ℕ),
    cubGroup step periodic (ns.map Int.ofNat) v w u =
      (List.range ns.length).flatMap fun c => (List.range (cubPieces step periodic (ns.getD c 0))).map fun i : ℕ =>
        (⟨(v + offset (fun n => 4 * cubPieces step periodic n) ns c + 4 * i : ℕ),
          (v + offset (fun n => 4 * cubPieces step periodic n) ns c + 4 * i + 1 : ℕ),
          (v + offset (fun n => 4 * cubPieces step periodic n) ns c + 4 * i + 2 : ℕ),
          (v + offset (fun n => 4 * cubPieces step periodic n) ns c + 4 * i + 3 : ℕ),
          (w + offset (cubVarying step periodic) ns c + i : ℕ),
          (w + offset (cubVarying step periodic) ns c + (i + 1) % cubVarying step periodic (ns.getD c 0) : ℕ), (u + c : ℕ),
          (i : ℚ) / cubPieces step periodic (ns.getD c 0), ((i : ℚ) + 1) / cubPieces step periodic (ns.getD c 0)⟩ : CubSeg) := by
  intro ns
  induction ns with
  | nil => intro _ v w u; simp [cubGroup]
  | cons n ns ih =>
    intro h v w u
    have hs := segments_eq n step periodic (h n (by simp))
    have hv : (if periodic then segmentsPerCurve n step periodic else segmentsPerCurve n step periodic + 1) =
        ((cubVarying step periodic n : ℕ) : ℤ) := by
      rw [hs]; unfold cubVarying; cases periodic <;> simp
    have e : cubGroup step periodic ((n :: ns).map Int.ofNat) v w u =
        cubCurve (segmentsPerCurve n step periodic)
          (if periodic then segmentsPerCurve n step periodic else segmentsPerCurve n step periodic + 1) v w u
          (segmentsPerCurve n step periodic).toNat 0 0 ++
        cubGroup step periodic (ns.map Int.ofNat) ((v : ℤ) + 4 * segmentsPerCurve n step periodic)
          ((w : ℤ) + (if periodic then segmentsPerCurve n step periodic else segmentsPerCurve n step periodic + 1)) ((u : ℤ) + 1) := rfl
    rw [e, hv, hs, Int.toNat_natCast,
      show (v : ℤ) + 4 * (cubPieces step periodic n : ℕ) = ((v + 4 * cubPieces step periodic n : ℕ) : ℤ) by push_cast; rfl,
      show (w : ℤ) + (cubVarying step periodic n : ℕ) = ((w + cubVarying step periodic n : ℕ) : ℤ) by push_cast; rfl,
      show (u : ℤ) + 1 = ((u + 1 : ℕ) : ℤ) by push_cast; rfl, ih (fun m hm => h m (by simp [hm]))]
    have e0 := cubCurve_eq (cubPieces step periodic n) (cubVarying step periodic n) v w u (cubPieces step periodic n) 0
    simp only [Nat.cast_zero] at e0
    rw [e0, List.length_cons, List.range_succ_eq_map, List.flatMap_cons, List.flatMap_map]
    congr 1
    · apply List.map_congr_left
      intro j hj
      rw [List.mem_range] at hj
      have hjv : j < cubVarying step periodic n := by unfold cubVarying; split <;> omega
      simp only [List.getD_cons_zero, offset_zero, Nat.zero_add, Nat.add_zero, Nat.mod_eq_of_lt hjv]
    · congr 1
      funext c
      simp only [List.getD_cons_succ, Nat.succ_eq_add_one, offset_succ]
      apply List.map_congr_left
      intro j _
      simp only [CubSeg.mk.injEq, and_true]
      refine ⟨?_, ?_, ?_, ?_, ?_, ?_, ?_⟩ <;> push_cast <;> ring

variable {K : Type} [Field K] [LinearOrder K] [IsStrictOrderedRing K]

omit [LinearOrder K] [IsStrictOrderedRing K] in
theorem convCurve_length (T : Mat K) (p : Int → K) (n start step : Int) : ∀ (k : ℕ) (idx : Int),
    (convCurve T p n start step k idx).length = 4 * k := by
  intro k
  induction k with
  | zero => intro idx; rfl
  | succ k ih => intro idx; simp [convCurve, ih]; ring

omit [LinearOrder K] [IsStrictOrderedRing K] in
theorem convCurve_get (T : Mat K) (p : Int → K) (n start step : ℕ) : ∀ (k i idx : ℕ) (r : Fin 4), i < k → idx + (i * step) < n →
    (convCurve T p n start step k idx)[4 * i + r.val]? =
      some (∑ j : Fin 4, T.m r j * p ((start + (idx + i * step + j.val) % n : ℕ) : ℤ)) := by
  intro k
  induction k with
  | zero => intro i idx r h; omega
  | succ k ih =>
    intro i idx r h hn
    unfold convCurve
    cases i with
    | succ i =>
      have e : 4 * (i + 1) + r.val = (4 * i + r.val) + 1 + 1 + 1 + 1 := by ring
      rw [e, List.getElem?_cons_succ, List.getElem?_cons_succ, List.getElem?_cons_succ, List.getElem?_cons_succ,
        show (idx : ℤ) + step = ((idx + step : ℕ) : ℤ) by push_cast; rfl]
      rw [ih i (idx + step) r (by omega) (by rw [Nat.add_one_mul] at hn; omega)]
      rw [show idx + step + i * step = idx + (i + 1) * step by ring]
    | zero =>
      have hlt : idx < n := by simpa using hn
      have e : row T (p (idx + start)) (p (((idx : ℤ) + 1).tmod n + start)) (p (((idx : ℤ) + 2).tmod n + start)) (p (((idx : ℤ) + 3).tmod n + start)) r =
          ∑ j : Fin 4, T.m r j * p ((start + (idx + 0 * step + j.val) % n : ℕ) : ℤ) := by
        rw [show (idx : ℤ) + 1 = ((idx + 1 : ℕ) : ℤ) by push_cast; rfl, show (idx : ℤ) + 2 = ((idx + 2 : ℕ) : ℤ) by push_cast; rfl,
          show (idx : ℤ) + 3 = ((idx + 3 : ℕ) : ℤ) by push_cast; rfl, tmod_cast, tmod_cast, tmod_cast]
        unfold row
        simp only [Fin.sum_univ_four]
        have z0 : ((0 : Fin 4) : ℕ) = 0 := rfl
        have z1 : ((1 : Fin 4) : ℕ) = 1 := rfl
        have z2 : ((2 : Fin 4) : ℕ) = 2 := rfl
        have z3 : ((3 : Fin 4) : ℕ) = 3 := rfl
        rw [z0, z1, z2, z3, Nat.zero_mul, Nat.add_zero, Nat.mod_eq_of_lt (by omega : idx + 0 < n)]
        simp only [Nat.add_zero, Nat.cast_add, add_comm]
      rw [← e]
      fin_cases r <;> simp

omit [LinearOrder K] [IsStrictOrderedRing K] in
theorem convGroup_get (T : Mat K) (p : Int → K) (step : ℕ) (periodic : Bool) (hs : 1 ≤ step) :
    ∀ (ns : List ℕ) (_ : ∀ n ∈ ns, periodic = false → 4 ≤ n) (start c i : ℕ) (r : Fin 4), c < ns.length →
    i < cubPieces step periodic (ns.getD c 0) →
    (convGroup T p step periodic (ns.map Int.ofNat) start)[offset (fun n => 4 * cubPieces step periodic n) ns c + 4 * i + r.val]? =
      some (∑ j : Fin 4, T.m r j * p ((start + offset id ns c + (i * step + j.val) % ns.getD c 0 : ℕ) : ℤ)) := by
  intro ns
  induction ns with
  | nil => intro _ start c i r hc; simp at hc
  | cons n ns ih =>
    intro h start c i r hc hi
    have hsg := segments_eq n step periodic (h n (by simp))
    have e : convGroup T p step periodic ((n :: ns).map Int.ofNat) start =
        convCurve T p n start step (segmentsPerCurve n step periodic).toNat 0 ++
          convGroup T p step periodic (ns.map Int.ofNat) ((start : ℤ) + n) := rfl
    rw [e, hsg, Int.toNat_natCast, show (start : ℤ) + n = ((start + n : ℕ) : ℤ) by push_cast; rfl]
    cases c with
    | zero =>
      simp only [List.getD_cons_zero, offset_zero, Nat.zero_add, Nat.add_zero] at hi ⊢
      rw [List.getElem?_append_left (by rw [convCurve_length]; have := r.isLt; omega)]
      have hin : i * step < n := by
        unfold cubPieces at hi
        cases periodic with
        | true =>
          simp only [if_true] at hi
          have h1 := Nat.mul_le_mul_right step (Nat.succ_le_of_lt hi)
          have h2 := Nat.div_mul_le_self n step
          rw [Nat.succ_mul] at h1
          omega
        | false =>
          have h4 := h n (by simp) rfl
          simp only [Bool.false_eq_true, if_false] at hi
          have h1 : i ≤ (n - 4) / step := by omega
          have h2 := Nat.mul_le_mul_right step h1
          have h3 := Nat.div_mul_le_self (n - 4) step
          omega
      have := convCurve_get T p n start step (cubPieces step periodic n) i 0 r hi (by omega)
      simp only [Nat.cast_zero, Nat.zero_add] at this
      exact this
    | succ c =>
      simp only [List.getD_cons_succ, offset_succ, id] at hi ⊢
      rw [List.getElem?_append_right (by rw [convCurve_length]; omega), convCurve_length]
      rw [show 4 * cubPieces step periodic n + offset (fun n => 4 * cubPieces step periodic n) ns c + 4 * i + r.val -
        4 * cubPieces step periodic n = offset (fun n => 4 * cubPieces step periodic n) ns c + 4 * i + r.val by omega]
      rw [ih (fun m hm => h m (by simp [hm])) (start + n) c i r (by simpa using hc) hi]
      simp only [Nat.add_assoc]

/-! ## Splitting pieces -/

end Verif.Geom.Curves
