import Verif.Geom.SubdMaskLemmas
import Mathlib.Tactic.Abel
/-!
# Lemmas about limit points
-/
set_option linter.unusedSectionVars false
namespace Verif.Geom.Subd
open Verif.Geom.Lath

section
variable {K E : Type} [Field K] [LinearOrder K] [IsStrictOrderedRing K] [AddCommGroup E] [Module K E]

theorem gLoop_ok {m : Mesh} {v : Nat → E} {z : Nat} : ∀ (b : List Nat) (f : Nat) (s : E) (n fuel : Nat), List.IsChain (fun a b => m.cf a = b) (f :: b) → (f :: b).getLast? = some z →
    (f :: b).Nodup → b.length < fuel → ∃ i, f :: b = i ++ [z] ∧ gLoop m v z fuel f s n = some (s + (i.map v).sum, n + b.length) := by
  intro b
  induction b with
  | nil =>
    intro f s n fuel _ h2 _ h4
    obtain ⟨fuel, rfl⟩ : ∃ g, fuel = g + 1 := ⟨fuel - 1, by simp at h4; omega⟩
    simp at h2; subst h2
    exact ⟨[], rfl, by simp [gLoop]⟩
  | cons g b ih =>
    intro f s n fuel h1 h2 h3 h4
    obtain ⟨fuel, rfl⟩ : ∃ g, fuel = g + 1 := ⟨fuel - 1, by simp at h4; omega⟩
    have e := List.isChain_cons_cons.1 h1
    have h2' : (g :: b).getLast? = some z := by simpa [List.getLast?_cons_cons] using h2
    have hne : f ≠ z := by
      rintro rfl
      have := List.mem_of_getLast? h2'
      simp at h3 this; tauto
    obtain ⟨i, hi, hg⟩ := ih g (s + v f) (n + 1) fuel e.2 h2' (List.nodup_cons.1 h3).2 (by simp at h4; omega)
    refine ⟨f :: i, by rw [hi]; rfl, ?_⟩
    simp only [gLoop, if_neg hne, e.1, hg, List.map_cons, List.sum_cons, List.length_cons]
    congr 2
    · abel
    · omega

variable {m : Mesh} (O : Ok m) {v : Nat → E} {fp : Nat → E} {pf : Nat → Nat}
include O

/-- The replacement of the further corners of a facet leaves the average as it is. -/
theorem fakePoint_eq (hf : ∀ x < m.laths, facePoint K m v x = some (fp x)) (P : Prev m pf) {x : Nat} (hx : x < m.laths) (hd : m.cf (m.cf x) ≠ x) :
    fakePoint K m v (v x) x = some ((4 : K) • fp x - v x - v (m.cf x) - v (pf x)) := by
  obtain ⟨a, z, e1, e2, e3, e4, e5, e6⟩ := O.face hx
  have hz : z < m.laths := e3 z (List.mem_of_getLast? e5)
  obtain rfl : pf x = z := pf_unique O P hz e6
  have hfx := hf x hx
  simp only [facePoint, e1, Option.map_some, Option.some.injEq, avg] at hfx
  match a, e1, e2, e3, e4, e5, hfx with
  | [], _, _, _, _, e5, _ =>
    simp at e5
    rw [← e5] at e6
    exact absurd (by rw [e6, e6]) hd
  | [e], _, _, _, e4, e5, _ =>
    simp at e5 e4
    rw [← e5] at e6
    exact absurd (by rw [e4, e6]) hd
  | e :: f :: b, e1, e2, e3, e4, e5, hfx =>
    have c1 := List.isChain_cons_cons.1 e4
    have c2 := List.isChain_cons_cons.1 c1.2
    have e5' : (f :: b).getLast? = some (pf x) := by simpa [List.getLast?_cons_cons] using e5
    have hb : (f :: b).Nodup := (List.nodup_cons.1 (List.nodup_cons.1 e2).2).2
    have hlen : (x :: e :: f :: b).length ≤ m.laths := length_le_of_nodup e2 e3
    by_cases hq : b = [pf x]
    · subst hq
      have c3 := List.isChain_cons_cons.1 c2.2
      have hc : m.cf (m.cf (m.cf (m.cf x))) = x := by rw [c1.1, c2.1, c3.1, e6]
      simp only [fakePoint, if_pos hc]
      rw [← hfx, c1.1, c2.1]
      simp only [List.map_cons, List.map_nil, List.sum_cons, List.sum_nil, List.length_cons, List.length_nil]
      congr 1
      norm_num
      module
    · have hc : ¬ m.cf (m.cf (m.cf (m.cf x))) = x := by
        rw [c1.1, c2.1]
        match b, hq, c2, e2, e5' with
        | [], _, _, e2, e5' =>
          simp at e5'
          rw [e5', e6, c1.1]
          simp at e2; tauto
        | [g], hq, c2, _, e5' => simp at e5'; exact absurd (by rw [e5']) hq
        | g :: g' :: b, _, c2, e2, _ =>
          have c3 := List.isChain_cons_cons.1 c2.2
          have c4 := List.isChain_cons_cons.1 c3.2
          rw [c3.1, c4.1]
          simp at e2; tauto
      obtain ⟨i, hi, hg⟩ := gLoop_ok (m := m) (v := v) (z := pf x) b f (0 : E) 3 (m.laths + 1) c2.2 e5' hb (by simp at hlen; omega)
      simp only [fakePoint, if_neg hc, ccf_pf O P hx, Option.bind_some]
      rw [c1.1, c2.1, hg, ← hfx, hi]
      have hil : i.length = b.length := by have := congrArg List.length hi; simp at this; omega
      simp only [List.map_cons, List.map_append, List.map_nil, List.sum_cons, List.sum_append, List.sum_nil, List.length_cons, List.length_append, List.length_nil, Option.map_some, List.length_map, hil]
      congr 1
      have hK : ((3 + b.length : ℕ) : K) = ((b.length + (0 + 1) + 1 + 1 : ℕ) : K) := by push_cast; ring
      rw [hK, div_eq_mul_inv]
      have hne : ((b.length + (0 + 1) + 1 + 1 : ℕ) : K) ≠ 0 := Nat.cast_ne_zero.2 (by omega)
      generalize ((b.length + (0 + 1) + 1 + 1 : ℕ) : K) = n
      generalize (i.map v).sum = s
      module

theorem limitLoop_ok {l : Nat} {q : Nat → E} : ∀ (t : List Nat) (x : Nat) (e f : E) (n fuel : Nat), List.IsChain (fun a b => m.cv a = some b) (x :: t) → l ∉ t →
    (∀ z, (x :: t).getLast? = some z → m.cv z = some l) → (∀ y ∈ x :: t, fakePoint K m v (v l) y = some (q y)) → t.length < fuel →
    limitLoop K m v l fuel x (e, f, n) = some (e + ((x :: t).map fun y => v (m.cf y)).sum, f + ((x :: t).map q).sum, n + (x :: t).length) := by
  intro t
  induction t with
  | nil =>
    intro x e f n fuel _ _ h3 h4 h5
    obtain ⟨fuel, rfl⟩ : ∃ g, fuel = g + 1 := ⟨fuel - 1, by simp at h5; omega⟩
    simp [limitLoop, h4 x (by simp), h3 x (by simp)]
  | cons y t ih =>
    intro x e f n fuel h1 h2 h3 h4 h5
    obtain ⟨fuel, rfl⟩ : ∃ g, fuel = g + 1 := ⟨fuel - 1, by simp at h5; omega⟩
    have c := List.isChain_cons_cons.1 h1
    have hy : y ≠ l := by rintro rfl; simp at h2
    have := ih y (e + v (m.cf x)) (f + q x) (n + 1) fuel c.2 (fun hh => h2 (List.mem_cons_of_mem _ hh)) (fun z hz => h3 z (by simpa [List.getLast?_cons_cons] using hz))
      (fun w hw => h4 w (List.mem_cons_of_mem _ hw)) (by simp at h5; omega)
    simp only [limitLoop, h4 x (by simp), Option.bind_some, c.1, if_neg hy, this]
    simp only [List.map_cons, List.sum_cons, List.length_cons]
    congr 2
    · abel
    · congr 1
      · abel
      · omega

/-- The links around a vertex inside of the mesh. -/
theorem closed_chain {l : Nat} (hl : l < m.laths) (hi : Inside m l) : ∃ a z, IsFan m l (l :: a) ∧ List.IsChain (fun a b => m.cv a = some b) (l :: a) ∧ (l :: a).getLast? = some z ∧ m.cv z = some l ∧
    (∀ y ∈ l :: a, y < m.laths) := by
  obtain ⟨F, q1, q2, hF, _, _⟩ := closed_fan O hl hi
  rcases O.fan hl with ⟨a, e1, e2, e3, e4, z, e5, e6⟩ | ⟨a, b, e1, f1, _⟩
  · rw [(O.closed e1).1] at q1; cases q1
    exact ⟨a, z, hF, e4, e5, e6, e3⟩
  · have := O.opened e1 f1
    rw [this.1] at q1; rw [this.2] at q2
    have h1 := Option.some.inj q1
    have h2 := Option.some.inj q2
    have := congrArg List.length (h1.trans h2.symm)
    simp at this

/-- The other ends of the edges around a vertex, from both sides. -/
theorem ends_perm (P : Prev m pf) (hv : ∀ x y, Fan m x y → v x = v y) {l : Nat} (hl : l < m.laths) (hi : Inside m l) {L : List Nat} (hL : IsFan m l L) :
    (L.map fun x => v (m.cf x)).sum = (L.map fun x => v (pf x)).sum := by
  have hN : ∀ x ∈ L, x < m.laths := fun x hx => (O.fan_lt ((hL.2 x).1 hx)).1 hl
  -- the lath before
  have hc : ∀ x ∈ L, ∃ y ∈ L, m.ccv x = some y := by
    intro x hx
    cases e : m.ccv x with
    | none => exact absurd e (hi x ((hL.2 x).1 hx))
    | some y =>
      refine ⟨y, (hL.2 y).2 ?_, rfl⟩
      exact .trans _ _ _ ((hL.2 x).1 hx) (.symm _ _ (.rel _ _ ⟨O.ccv_lt (hN x hx) e, O.cv_of_ccv (hN x hx) e⟩))
  let g : Nat → Nat := fun x => (m.ccv x).getD 0
  have hg : ∀ x ∈ L, g x ∈ L ∧ m.cv (g x) = some x := by
    intro x hx
    obtain ⟨y, hy, e⟩ := hc x hx
    have : g x = y := by simp [g, e]
    rw [this]; exact ⟨hy, O.cv_of_ccv (hN x hx) e⟩
  have hinj : ∀ x ∈ L, ∀ y ∈ L, g x = g y → x = y := by
    intro x hx y hy e
    have h1 := (hg x hx).2
    rw [e, (hg y hy).2] at h1
    exact (Option.some.inj h1).symm
  have hnd : (L.map g).Nodup := (List.nodup_map_iff_inj_on hL.1).2 hinj
  have hsub : L.map g ⊆ L := by
    intro y hy
    obtain ⟨x, hx, rfl⟩ := List.mem_map.1 hy
    exact (hg x hx).1
  have hp : (L.map g).Perm L := (hnd.subperm hsub).perm_of_length_le (by simp)
  rw [← (hp.map fun x => v (pf x)).sum_eq, List.map_map]
  congr 1
  refine List.map_congr_left fun x hx => ?_
  obtain ⟨h1, h2⟩ := hg x hx
  -- `cf x` is the companion of `g x`
  have hgN := hN _ h1
  have he : m.ec (g x) = some (m.cf x) := by simp [Mesh.ec, h2]
  have hee := O.ec_ec hgN he
  simp only [Mesh.ec, Option.map_eq_some_iff] at hee
  obtain ⟨w, w1, w2⟩ := hee
  have hcN := O.cf_lt _ (hN x hx)
  have hw : pf (g x) = w := pf_unique O P (O.cv_lt _ hcN _ w1) w2
  show v (m.cf x) = v (pf (g x))
  rw [hw]
  exact hv _ _ (.rel _ _ ⟨hcN, w1⟩)

/-- The values of the facets on the other sides of the edges. -/
theorem sum_ccv {l : Nat} (hl : l < m.laths) (hi : Inside m l) {L : List Nat} (hL : IsFan m l L) (f : Nat → E) : (L.map fun x => f ((m.ccv x).getD 0)).sum = (L.map f).sum := by
  have hN : ∀ x ∈ L, x < m.laths := fun x hx => (O.fan_lt ((hL.2 x).1 hx)).1 hl
  have hg : ∀ x ∈ L, ∃ y ∈ L, (m.ccv x).getD 0 = y ∧ m.cv y = some x := by
    intro x hx
    cases e : m.ccv x with
    | none => exact absurd e (hi x ((hL.2 x).1 hx))
    | some y =>
      refine ⟨y, (hL.2 y).2 ?_, rfl, O.cv_of_ccv (hN x hx) e⟩
      exact .trans _ _ _ ((hL.2 x).1 hx) (.symm _ _ (.rel _ _ ⟨O.ccv_lt (hN x hx) e, O.cv_of_ccv (hN x hx) e⟩))
  have hnd : (L.map fun x => (m.ccv x).getD 0).Nodup := (List.nodup_map_iff_inj_on hL.1).2 (by
    intro x hx y hy e
    obtain ⟨u, _, u1, u2⟩ := hg x hx
    obtain ⟨w, _, w1, w2⟩ := hg y hy
    have : u = w := u1.symm.trans (e.trans w1)
    rw [this, w2] at u2
    exact (Option.some.inj u2).symm)
  have hsub : (L.map fun x => (m.ccv x).getD 0) ⊆ L := by
    intro y hy
    obtain ⟨x, hx, rfl⟩ := List.mem_map.1 hy
    obtain ⟨u, hu, u1, _⟩ := hg x hx
    exact u1 ▸ hu
  have hp : (L.map fun x => (m.ccv x).getD 0).Perm L := (hnd.subperm hsub).perm_of_length_le (by simp)
  rw [← (hp.map f).sum_eq, List.map_map]
  rfl

/-- The mask of the limit point. -/
theorem limit_inside (hf : ∀ x < m.laths, facePoint K m v x = some (fp x)) (P : Prev m pf) (hd : ∀ x < m.laths, m.cf (m.cf x) ≠ x) (hv : ∀ x y, Fan m x y → v x = v y)
    {c : Nat → K} {l : Nat} (hl : l < m.laths) (hi : Inside m l) (hc : c l ≤ 0) {L : List Nat} (hL : IsFan m l L) :
    limitPoint K m v c l = some (((L.length : K) * (L.length + 5))⁻¹ • (((L.length : K) ^ 2) • v l +
      (L.map fun x => (4 : K) • v (pf x) + ((4 : K) • fp x - v l - v (m.cf x) - v (pf x))).sum)) := by
  obtain ⟨a, z, hF, e4, e5, e6, hN⟩ := closed_chain O hl hi
  have p := hL.perm hF
  rw [(p.map fun x => (4 : K) • v (pf x) + ((4 : K) • fp x - v l - v (m.cf x) - v (pf x))).sum_eq, p.length_eq]
  have hlen := length_le_of_nodup hF.1 hN
  obtain ⟨b, hb, hb2⟩ := O.boundary hl
  have hbf : b = false := by
    cases b
    · rfl
    · obtain ⟨x, hx, hx2⟩ := hb2.1 rfl
      exact absurd hx2 (hi x hx)
  subst hbf
  have hloop := limitLoop_ok (K := K) O (v := v) (l := l) (q := fun x => (4 : K) • fp x - v l - v (m.cf x) - v (pf x)) a l 0 0 0 (m.laths + 1) e4 (List.nodup_cons.1 hF.1).1
    (by intro w hw; rw [e5] at hw; cases hw; exact e6)
    (by
      intro y hy
      have hy2 : v l = v y := hv _ _ ((hF.2 y).1 hy)
      have := fakePoint_eq (K := K) O hf P (hN y hy) (hd y (hN y hy))
      rw [← hy2] at this; exact this)
    (by simp at hlen; omega)
  simp only [limitPoint, if_neg (not_lt.2 hc), hb, Option.bind_some, Bool.false_eq_true, if_false, hloop, Option.map_some, zero_add]
  have hsum : ((l :: a).map fun x => (4 : K) • v (pf x) + ((4 : K) • fp x - v l - v (m.cf x) - v (pf x))).sum =
      (4 : K) • ((l :: a).map fun x => v (m.cf x)).sum + ((l :: a).map fun x => (4 : K) • fp x - v l - v (m.cf x) - v (pf x)).sum := by
    rw [ends_perm O P hv hl hi hF, List.sum_map_add, List.smul_sum, List.map_map]
    rfl
  rw [hsum]
  congr 1
  rw [one_div, add_assoc, pow_two]

/-! ## Boundaries -/

theorem lastCv_ok : ∀ (t : List Nat) (x z fuel : Nat), List.IsChain (fun a b => m.cv a = some b) (x :: t) → (x :: t).getLast? = some z → m.cv z = none → t.length < fuel →
    lastCv m fuel x = some z := by
  intro t
  induction t with
  | nil =>
    intro x z fuel _ h2 h3 h4
    obtain ⟨fuel, rfl⟩ : ∃ g, fuel = g + 1 := ⟨fuel - 1, by simp at h4; omega⟩
    simp at h2; subst h2
    simp [lastCv, h3]
  | cons y t ih =>
    intro x z fuel h1 h2 h3 h4
    obtain ⟨fuel, rfl⟩ : ∃ g, fuel = g + 1 := ⟨fuel - 1, by simp at h4; omega⟩
    have c := List.isChain_cons_cons.1 h1
    simp only [lastCv, c.1]
    exact ih y z fuel c.2 (by simpa [List.getLast?_cons_cons] using h2) h3 (by simp at h4; omega)

theorem lastCcv_ok : ∀ (t : List Nat) (x z fuel : Nat), List.IsChain (fun a b => m.ccv a = some b) (x :: t) → (x :: t).getLast? = some z → m.ccv z = none → t.length < fuel →
    lastCcv m fuel x = some z := by
  intro t
  induction t with
  | nil =>
    intro x z fuel _ h2 h3 h4
    obtain ⟨fuel, rfl⟩ : ∃ g, fuel = g + 1 := ⟨fuel - 1, by simp at h4; omega⟩
    simp at h2; subst h2
    simp [lastCcv, h3]
  | cons y t ih =>
    intro x z fuel h1 h2 h3 h4
    obtain ⟨fuel, rfl⟩ : ∃ g, fuel = g + 1 := ⟨fuel - 1, by simp at h4; omega⟩
    have c := List.isChain_cons_cons.1 h1
    simp only [lastCcv, c.1]
    exact ih y z fuel c.2 (by simpa [List.getLast?_cons_cons] using h2) h3 (by simp at h4; omega)

theorem limit_boundary (P : Prev m pf) {c : Nat → K} {l z s : Nat} (hl : l < m.laths) (hc : c l ≤ 0) (hz : Fan m l z) (hz2 : m.cv z = none) (hs : Fan m l s) (hs2 : m.ccv s = none) :
    limitPoint K m v c l = some (if z = s then v l else ((6 : K)⁻¹) • ((4 : K) • v l + v (pf z) + v (m.cf s))) := by
  obtain ⟨F, z', s', q1, hF, hz', hs', q, f1, f2, f3, f4⟩ := open_fan O hl ⟨s, hs, hs2⟩
  obtain rfl := f3 z ((hF.2 z).2 hz) hz2
  obtain rfl := f4 s ((hF.2 s).2 hs) hs2
  have hsN := (O.fan_lt hs).1 hl
  have hzN := (O.fan_lt hz).1 hl
  obtain ⟨b, hb, hb2⟩ := O.boundary hl
  obtain rfl : b = true := hb2.2 ⟨s, hs, hs2⟩
  by_cases hcor : m.isCornerVertex l = true
  · have hall := ((O.corner hl).1 hcor).2
    obtain rfl := hall z hz
    obtain rfl := hall s hs
    simp [limitPoint, hb, hcor]
  · have hzs : z ≠ s := by
      rintro rfl
      have hc : m.isCornerVertex z = true := by
        simp only [Mesh.isCornerVertex, hz2, Option.isNone_none, Bool.true_and]
        simpa [Mesh.ccv, Mesh.ec] using hs2
      have := ((O.corner hzN).1 hc).2 l (.symm _ _ hz)
      subst this; exact hcor hc
    have h1 : lastCv m (m.laths + 1) l = some z := by
      rcases O.fan hl with ⟨a, e1, _⟩ | ⟨a, b, e1, _, e2, e3, e4, ⟨w, e5, e6⟩, _⟩
      · have := O.closed e1
        rw [this.1] at q1; rw [this.2] at q
        have h1 := Option.some.inj q1
        have h2 := Option.some.inj q
        have := congrArg List.length (h1.symm.trans h2)
        simp at this
      · have hw : Fan m l w := by
          have hN : ∀ y ∈ l :: a, y < m.laths := fun y hy => e3 y (List.mem_append_right _ hy)
          have h4 : List.IsChain (fun a b => m.cv a = some b) (l :: a) := (List.isChain_append.1 e4).2.1
          have h5 : List.IsChain (fun a b => a < m.laths ∧ m.cv a = some b) (l :: a) := by
            have := List.isChain_iff_getElem.1 h4
            exact List.isChain_iff_getElem.2 fun i hi => ⟨hN _ (List.getElem_mem _), this i hi⟩
          exact chain_conn h5 w (List.mem_of_getLast? e5)
        obtain rfl := f3 w ((hF.2 w).2 hw) e6
        have hlen := length_le_of_nodup e2 e3
        exact lastCv_ok O a l w _ (List.isChain_append.1 e4).2.1 e5 e6 (by simp at hlen; omega)
    have h2 : lastCcv m (m.laths + 1) l = some s := by
      obtain ⟨a, b, e1, e2, e3, e4, w, e5, e6⟩ := walk_start O.pinj_ccv hl
      have hbt : b = true := by
        have : m.isBoundaryVertex l = some b := by simp only [Mesh.isBoundaryVertex, O.boundaryLoop_eq, e1, Option.map_some]
        rw [hb] at this; exact (Option.some.inj this).symm
      subst hbt
      simp at e6
      have hw : Fan m l w := by
        have h5 : List.IsChain (fun a b => Fan m a b) (l :: a) := by
          have := List.isChain_iff_getElem.1 e4
          refine List.isChain_iff_getElem.2 fun i hi => ?_
          have hN := e3 ((l :: a)[i]) (List.getElem_mem _)
          exact .symm _ _ (.rel _ _ ⟨O.ccv_lt hN (this i hi), O.cv_of_ccv hN (this i hi)⟩)
        exact eqvGen_fan (chain_conn h5 w (List.mem_of_getLast? e5))
      obtain rfl := f4 w ((hF.2 w).2 hw) e6
      have hlen := length_le_of_nodup e2 e3
      exact lastCcv_ok O a l w _ e4 e5 e6 (by simp at hlen; omega)
    simp only [limitPoint, if_neg (not_lt.2 hc), hb, Option.bind_some, if_true, hcor, Bool.false_eq_true, if_false, h1, h2, ccf_pf O P hzN, Option.map_some, if_neg hzs]
    congr 1
    module

end
end Verif.Geom.Subd
