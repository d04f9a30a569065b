import Verif.Geom.LathBuildLemmas
import Mathlib.Data.List.GetD
/-!
# Lemmas about `Finalise`: one vertex, and all vertices
-/
namespace Verif.Geom.Lath
open Mesh

set_option linter.unusedSectionVars false

section
variable {m0 : Mesh} {pf : Nat → Nat} (B : Base m0 pf) {i : Nat} {m : Mesh} (I : Inv m0 pf i m)
include B I

/-- The state after the links of vertex `i`, if no lath is moved. -/
theorem inv_keep {m' : Mesh} (hm : m' = { m with cv := m'.cv }) (hs : ∀ l < m0.laths, ∀ x, m'.cv l = some x → Mate m0 pf l x)
    (hoff : ∀ l < m0.laths, m.vert l ≠ i → m'.cv l = m.cv l) (hdone : ∀ l < m0.laths, m.vert l = i → ∀ x, Mate m0 pf l x → m'.cv l = some x)
    (hfan : ∀ l < m0.laths, ∀ x < m0.laths, m.vert l = i → m.vert x = i → MFan m0 pf l x ∨ Closed m0 pf l ∨ Closed m0 pf x) : Inv m0 pf (i + 1) m' := by
  have hv : m'.vert = m.vert := by rw [hm]
  refine ⟨by rw [hm]; exact I.laths, by rw [hm]; exact I.cf, by rw [hm]; exact I.facets, hs, by rw [hv]; exact I.i1, by rw [hv]; exact I.i2, by rw [hm]; exact I.at_mem,
    by rw [hm]; exact I.at_nodup, ?_, ?_, ?_, by rw [hm]; exact I.src, by rw [hm]; exact I.srclen, by rw [hm]; exact I.grow, by rw [hm]; exact I.keep, by rw [hm]; exact I.fsrc, by rw [hv]; exact I.stay⟩
  · intro l hl hlt x hx
    rw [hv] at hlt
    by_cases he : m.vert l = i
    · exact hdone l hl he x hx
    · rw [hoff l hl he]; exact I.done l hl (by omega) x hx
  · intro l hl hlt
    rw [hv] at hlt
    rw [hoff l hl (by omega)]; exact I.undone l hl (by omega)
  · intro l hl x hx e hlt
    rw [hv] at e hlt
    by_cases he : m.vert l = i
    · exact hfan l hl x hx he (e ▸ he)
    · exact I.fan l hl x hx e (by omega)

theorem getD_separate {A : List (List Nat)} {a rest : List Nat} (hi : i < A.length) (j : Nat) :
    ((A.set i a) ++ [rest]).getD j [] = if j = i then a else if j = A.length then rest else A.getD j [] := by
  by_cases h1 : j = i
  · subst h1; rw [if_pos rfl, List.getD_append _ _ _ _ (by simpa using hi)]
    simp [List.getD_eq_getElem?_getD, hi]
  · rw [if_neg h1]
    by_cases h2 : j = A.length
    · rw [if_pos h2, List.getD_append_right _ _ _ _ (by simp [h2])]; simp [h2]
    · rw [if_neg h2]
      by_cases h3 : j < A.length
      · rw [List.getD_append _ _ _ _ (by simpa using h3)]
        simp [List.getD_eq_getElem?_getD, Ne.symm h1]
      · rw [List.getD_append_right _ _ _ _ (by simp; omega), List.getD_eq_default, List.getD_eq_default]
        · omega
        · simp; omega

theorem finaliseVertex_ok (fv : Bool) (hi : i < m.atVert.length) : ∃ m', finaliseVertex fv m i = some m' ∧ Inv m0 pf (i + 1) m' ∧
    ((m'.atVert.length = m.atVert.length ∧ ∀ l < m0.laths, m'.vert l = m.vert l) ∨
      (m'.atVert.length = m.atVert.length + 1 ∧ (∀ l < m0.laths, i + 1 ≤ m'.vert l → i ≤ m.vert l) ∧ ∃ s < m0.laths, m.vert s = i ∧ m'.vert s = i)) := by
  obtain ⟨L, hL⟩ : ∃ L, L = m.atVert.getD i [] := ⟨_, rfl⟩
  have hmem : ∀ l, l ∈ L ↔ l < m0.laths ∧ m.vert l = i := by intro l; rw [hL]; exact I.at_mem i l
  have hnd : L.Nodup := hL ▸ I.at_nodup i
  unfold finaliseVertex
  rw [← hL]
  match hLs : L with
  | [] =>
    refine ⟨m, rfl, inv_keep B I rfl I.sound (fun _ _ _ => rfl) ?_ ?_, Or.inl ⟨rfl, fun _ _ => rfl⟩⟩
    · intro l hl e; have := (hmem l).2 ⟨hl, e⟩; cases this
    · intro l hl _ _ e; have := (hmem l).2 ⟨hl, e⟩; cases this
  | [s] =>
    refine ⟨m, rfl, inv_keep B I rfl I.sound (fun _ _ _ => rfl) ?_ ?_, Or.inl ⟨rfl, fun _ _ => rfl⟩⟩
    · intro l hl e x hx
      have h1 := (hmem l).2 ⟨hl, e⟩
      have h2 := (hmem x).2 ⟨hx.2.1, (I.i1 l x hx).symm.trans e⟩
      simp at h1 h2
      rw [h1, h2] at hx
      exact (hx.irrefl B).elim
    · intro l hl x hx e e'
      have h1 := (hmem l).2 ⟨hl, e⟩
      have h2 := (hmem x).2 ⟨hx, e'⟩
      simp at h1 h2
      rw [h1, h2]; exact Or.inl (.refl _)
  | s :: s' :: t =>
    rw [← hLs] at hL hmem hnd
    have hsL : s ∈ L := by rw [hLs]; simp
    obtain ⟨p, w, e1, hp, k⟩ := link_ok B I hL hsL
    rw [hLs] at e1
    simp only [e1, Option.map_some]
    rw [← hLs]
    have hsound := sound_of B I k.off (fun l hl x e => (k.lnk l hl x e).1)
    have hwv : w.mesh.vert = m.vert := by rw [k.mesh]
    have hwa : w.mesh.atVert = m.atVert := by rw [k.mesh]
    by_cases hc : w.count < L.length
    · -- separate
      rw [if_pos hc]
      have hrest : ∀ x, x ∈ L.filter (fun x => !w.visited.contains x) ↔ x ∈ L ∧ x ∉ w.visited := by intro x; simp [List.mem_filter]
      have hstay : ∀ x, x ∈ L.filter (fun x => w.visited.contains x) ↔ x ∈ w.visited := by
        intro x; rw [List.mem_filter]; simp only [List.contains_iff_mem]
        exact ⟨fun h => h.2, fun h => ⟨k.sub x h, h⟩⟩
      obtain ⟨rest, hr⟩ : ∃ r, r = L.filter (fun x => !w.visited.contains x) := ⟨_, rfl⟩
      rw [← hr] at hrest
      obtain ⟨n, hn⟩ : ∃ n, n = m.atVert.length := ⟨_, rfl⟩
      have hvlt : ∀ l < m0.laths, m.vert l < n := by
        intro l hl
        by_contra hge
        have := (I.at_mem (m.vert l) l).2 ⟨hl, rfl⟩
        rw [List.getD_eq_default _ _ (by omega)] at this
        cases this
      obtain ⟨m', hm'⟩ : ∃ m', m' = separate fv w.mesh i p w.visited := ⟨_, rfl⟩
      rw [← hm']
      have g1 : m'.vert = fun l => if rest.contains l then n else m.vert l := by
        rw [hm']; simp only [separate]; rw [hwv, hwa, ← hL, ← hr, ← hn]
      have g2 : m'.atVert = (m.atVert.set i (L.filter fun x => w.visited.contains x)) ++ [rest] := by
        rw [hm']; simp only [separate]; rw [hwa, ← hL, ← hr]
      have g3 : m'.cv = w.mesh.cv := by rw [hm']; rfl
      have g4 : m'.laths = m0.laths := by rw [hm', separate, k.mesh]; exact I.laths
      have g5 : m'.cf = m0.cf := by rw [hm', separate, k.mesh]; exact I.cf
      have g6 : m'.src = m.src ++ [m.src.getD (m.vert p) 0] := by rw [hm', separate, k.mesh]
      have g7 : m'.facets = m0.facets := by rw [hm', separate, k.mesh]; exact I.facets
      have g8 : ∀ l, l ∉ rest → m'.fvert l = m.fvert l := by
        intro l hl
        rw [hm']; simp only [separate]; rw [hwa, ← hL, ← hr, k.mesh]
        rw [if_neg (by rw [List.contains_iff_mem]; exact hl)]
      have g9 : m.fsrc <+: m'.fsrc := by
        rw [hm']; simp only [separate]; rw [k.mesh]; cases fv
        · simp
        · simp
      have hvr : ∀ l, l ∈ rest → m'.vert l = n := by intro l hl; rw [g1]; show (if rest.contains l then n else _) = n; rw [if_pos (List.contains_iff_mem.2 hl)]
      have hvn : ∀ l, l ∉ rest → m'.vert l = m.vert l := by
        intro l hl; rw [g1]; show (if rest.contains l then n else m.vert l) = m.vert l
        rw [if_neg (by rw [List.contains_iff_mem]; exact hl)]
      have hmr : ∀ l x, Mate m0 pf l x → (l ∈ rest ↔ x ∈ rest) := by
        intro l x hx
        rw [hrest, hrest, mem_of_mate B I hL hx, k.closed l x hx]
      have hiv : ∀ l < m0.laths, l ∉ rest → m.vert l = i → l ∈ w.visited := by
        intro l hl hl' e
        by_contra hc'
        exact hl' ((hrest l).2 ⟨(hmem l).2 ⟨hl, e⟩, hc'⟩)
      refine ⟨m', rfl, ⟨g4, g5, g7, by rw [g3]; exact hsound, ?_, ?_, ?_, ?_, ?_, ?_, ?_, ?_, ?_, ?_, ?_, I.fsrc.trans g9, ?_⟩, Or.inr ⟨by rw [g2]; simp, ?_, s, ?_⟩⟩
      · intro l x hx
        by_cases hl : l ∈ rest
        · rw [hvr l hl, hvr x ((hmr l x hx).1 hl)]
        · rw [hvn l hl, hvn x (fun h => hl ((hmr l x hx).2 h))]; exact I.i1 l x hx
      · intro l hl x hx e
        by_cases h1 : l ∈ rest
        · by_cases h2 : x ∈ rest
          · have a := ((hmem l).1 ((hrest l).1 h1).1).2
            have b := ((hmem x).1 ((hrest x).1 h2).1).2
            exact I.i2 l hl x hx (a.trans b.symm)
          · rw [hvr l h1, hvn x h2] at e; have := hvlt x hx; omega
        · by_cases h2 : x ∈ rest
          · rw [hvn l h1, hvr x h2] at e; have := hvlt l hl; omega
          · rw [hvn l h1, hvn x h2] at e; exact I.i2 l hl x hx e
      · intro j l
        rw [g2, getD_separate B I hi]
        by_cases h1 : j = i
        · rw [if_pos h1, hstay, h1]
          constructor
          · intro hlv
            obtain ⟨a, b⟩ := (hmem l).1 (k.sub l hlv)
            exact ⟨a, by rw [hvn l (fun h => ((hrest l).1 h).2 hlv)]; exact b⟩
          · rintro ⟨a, b⟩
            have hlr : l ∉ rest := by intro h; rw [hvr l h] at b; omega
            rw [hvn l hlr] at b
            exact hiv l a hlr b
        · rw [if_neg h1]
          by_cases h2 : j = m.atVert.length
          · rw [if_pos h2, h2]
            constructor
            · intro hlr
              exact ⟨((hmem l).1 ((hrest l).1 hlr).1).1, by rw [hvr l hlr, hn]⟩
            · rintro ⟨a, b⟩
              by_contra hlr
              rw [hvn l hlr] at b
              have := hvlt l a; omega
          · rw [if_neg h2, I.at_mem]
            refine and_congr_right fun hl => ?_
            by_cases hlr : l ∈ rest
            · rw [hvr l hlr]
              have := ((hmem l).1 ((hrest l).1 hlr).1).2
              constructor
              · intro e; exact absurd (e.symm.trans this) h1
              · intro e; exact absurd (e.symm.trans hn) h2
            · rw [hvn l hlr]
      · intro j
        rw [g2, getD_separate B I hi]
        split
        · exact hnd.filter _
        · split
          · rw [hr]; exact hnd.filter _
          · exact I.at_nodup j
      · intro l hl hlt x hx
        have hlr : l ∉ rest := by intro h; rw [hvr l h] at hlt; omega
        rw [hvn l hlr] at hlt
        rw [g3]
        by_cases he : m.vert l = i
        · exact k.done l (hiv l hl hlr he) x hx
        · rw [k.off l (fun h => he ((hmem l).1 h).2)]; exact I.done l hl (by omega) x hx
      · intro l hl hlt
        rw [g3]
        by_cases hlr : l ∈ rest
        · rcases hq : w.mesh.cv l with _ | x
          · rfl
          · exact absurd (k.lnk l ((hrest l).1 hlr).1 x hq).2 ((hrest l).1 hlr).2
        · rw [hvn l hlr] at hlt
          rw [k.off l (fun h => by have := ((hmem l).1 h).2; omega)]
          exact I.undone l hl (by omega)
      · intro l hl x hx e hlt
        have hlr : l ∉ rest := by intro h; rw [hvr l h] at hlt; omega
        have hxr : x ∉ rest := by intro h; rw [e, hvr x h] at hlt; omega
        rw [hvn l hlr] at e hlt
        rw [hvn x hxr] at e
        by_cases he : m.vert l = i
        · left
          exact .trans _ _ _ (.symm _ _ (k.fan l (hiv l hl hlr he))) (k.fan x (hiv x hx hxr (e ▸ he)))
        · exact I.fan l hl x hx e (by omega)
      · intro l hl
        rw [g6]
        by_cases hlr : l ∈ rest
        · rw [hvr l hlr, List.getD_append_right _ _ _ _ (by rw [I.srclen]; omega), I.srclen, hn]
          simp only [Nat.sub_self, List.getD_cons_zero]
          have hpN := ((hmem p).1 hp).1
          rw [I.src p hpN]
          exact I.i2 p hpN l hl (((hmem p).1 hp).2.trans ((hmem l).1 ((hrest l).1 hlr).1).2.symm)
        · rw [hvn l hlr, List.getD_append _ _ _ _ (by rw [I.srclen, ← hn]; exact hvlt l hl)]
          exact I.src l hl
      · rw [g6, g2]; simp [I.srclen]
      · rw [g2]; simp; exact Nat.le_succ_of_le I.grow
      · intro l hl hlt
        have hlr : l ∉ rest := by intro h; rw [hvr l h] at hlt; have := I.grow; omega
        rw [hvn l hlr] at hlt ⊢
        rw [g8 l hlr]
        exact I.keep l hl hlt
      · intro l hl
        obtain ⟨x, hx, e⟩ := I.stay l hl
        by_cases hxr : x ∈ rest
        · obtain ⟨a, b⟩ := (hmem s).1 hsL
          refine ⟨s, a, ?_⟩
          rw [hvn s (fun h => ((hrest s).1 h).2 k.start), b, ← e]
          exact ((hmem x).1 ((hrest x).1 hxr).1).2.symm
        · exact ⟨x, hx, by rw [hvn x hxr]; exact e⟩
      · intro l hl hlt
        by_cases hlr : l ∈ rest
        · have := ((hmem l).1 ((hrest l).1 hlr).1).2; omega
        · rw [hvn l hlr] at hlt; omega
      · obtain ⟨a, b⟩ := (hmem s).1 hsL
        exact ⟨a, b, by rw [hvn s (fun h => ((hrest s).1 h).2 k.start)]; exact b⟩
    · rw [if_neg hc]
      have hall : ∀ l ∈ L, l ∉ w.visited → Closed m0 pf s ∧ ∀ x ∈ L, x ∉ w.visited → x = l := by
        intro l hl hlv
        rcases k.cnt with ⟨a, b⟩ | ⟨hcl, A, a, b, c⟩
        · exfalso
          have hsub : w.visited ⊆ L := fun x hx => k.sub x hx
          have : (l :: w.visited).length ≤ L.length := (List.subperm_of_subset (List.nodup_cons.2 ⟨hlv, a⟩)
            (by intro x hx; rcases List.mem_cons.1 hx with rfl | hx
                · exact hl
                · exact hsub hx)).length_le
          simp at this; omega
        · refine ⟨hcl, fun x hx hxv => ?_⟩
          by_contra hne
          have : (x :: l :: A).length ≤ L.length := (List.subperm_of_subset
            (List.nodup_cons.2 ⟨by simp [hne, b, hxv], List.nodup_cons.2 ⟨by simp [b, hlv], a⟩⟩)
            (by intro y hy; rcases List.mem_cons.1 hy with rfl | hy
                · exact hx
                · rcases List.mem_cons.1 hy with rfl | hy
                  · exact hl
                  · exact k.sub y ((b y).1 hy))).length_le
          simp at this; omega
      refine ⟨w.mesh, rfl, inv_keep B I k.mesh hsound ?_ ?_ ?_, Or.inl ⟨by rw [hwa], fun l _ => by rw [hwv]⟩⟩
      · intro l _ hne; exact k.off l (fun h => hne ((hmem l).1 h).2)
      · intro l hl e x hx
        have hlL := (hmem l).2 ⟨hl, e⟩
        by_cases hlv : l ∈ w.visited
        · exact k.done l hlv x hx
        · exfalso
          have hxL := (mem_of_mate B I hL hx).1 hlL
          have hxv : x ∉ w.visited := fun h => hlv ((k.closed l x hx).2 h)
          have := (hall l hlL hlv).2 x hxL hxv
          rw [this] at hx
          exact hx.irrefl B
      · intro l hl x hx e e'
        have hlL := (hmem l).2 ⟨hl, e⟩
        have hxL := (hmem x).2 ⟨hx, e'⟩
        by_cases hlv : l ∈ w.visited
        · by_cases hxv : x ∈ w.visited
          · exact Or.inl (.trans _ _ _ (.symm _ _ (k.fan l hlv)) (k.fan x hxv))
          · exact Or.inr (Or.inl ((hall x hxL hxv).1.of_fan (k.fan l hlv)))
        · by_cases hxv : x ∈ w.visited
          · exact Or.inr (Or.inr ((hall l hlL hlv).1.of_fan (k.fan x hxv)))
          · rw [(hall l hlL hlv).2 x hxL hxv]; exact Or.inl (.refl _)

end

theorem finaliseFrom_ok {m0 : Mesh} {pf : Nat → Nat} (B : Base m0 pf) (fv : Bool) : ∀ (f i : Nat) (m : Mesh), Inv m0 pf i m → i ≤ m.atVert.length →
    (m.atVert.length - i) + ((Finset.range m0.laths).filter fun l => i ≤ m.vert l).card < f →
    ∃ m', finaliseFrom fv f i m = some m' ∧ Inv m0 pf m'.atVert.length m' := by
  intro f
  induction f with
  | zero => intro i m _ _ h; omega
  | succ f ih =>
    intro i m I hi hf
    simp only [finaliseFrom]
    by_cases hlen : m.atVert.length ≤ i
    · rw [if_pos hlen]
      have : i = m.atVert.length := by omega
      subst this
      exact ⟨m, rfl, I⟩
    · rw [if_neg hlen]
      obtain ⟨m', e, I', hc⟩ := finaliseVertex_ok B I fv (by omega)
      rw [e, Option.bind_some]
      rcases hc with ⟨h1, h2⟩ | ⟨h1, h2, s, hs, hs1, hs2⟩
      · refine ih (i + 1) m' I' (by omega) ?_
        have hsub : ((Finset.range m0.laths).filter fun l => i + 1 ≤ m'.vert l) ⊆ ((Finset.range m0.laths).filter fun l => i ≤ m.vert l) := by
          intro l hl
          rw [Finset.mem_filter, Finset.mem_range] at hl ⊢
          exact ⟨hl.1, by have := h2 l hl.1; omega⟩
        have := Finset.card_le_card hsub
        omega
      · refine ih (i + 1) m' I' (by omega) ?_
        have hsub : ((Finset.range m0.laths).filter fun l => i + 1 ≤ m'.vert l) ⊂ ((Finset.range m0.laths).filter fun l => i ≤ m.vert l) := by
          refine Finset.ssubset_iff_subset_ne.2 ⟨?_, ?_⟩
          · intro l hl
            rw [Finset.mem_filter, Finset.mem_range] at hl ⊢
            exact ⟨hl.1, h2 l hl.1 hl.2⟩
          · intro e
            have : s ∈ ((Finset.range m0.laths).filter fun l => i ≤ m.vert l) := by
              rw [Finset.mem_filter, Finset.mem_range]; exact ⟨hs, by omega⟩
            rw [← e, Finset.mem_filter] at this
            omega
        have := Finset.card_lt_card hsub
        omega

theorem finalise_ok {m0 : Mesh} {pf : Nat → Nat} (B : Base m0 pf) (fv : Bool) (I : Inv m0 pf 0 m0) : ∃ m, finalise fv m0 = some m ∧ Inv m0 pf m.atVert.length m := by
  refine finaliseFrom_ok B fv _ 0 m0 I (by omega) ?_
  have : ((Finset.range m0.laths).filter fun l => 0 ≤ m0.vert l).card ≤ m0.laths := by
    refine (Finset.card_filter_le _ _).trans ?_
    simp
  omega

/-- At the end the links are the mates. -/
theorem Inv.cv_iff {m0 m : Mesh} {pf : Nat → Nat} (I : Inv m0 pf m.atVert.length m) {l : Nat} (hl : l < m0.laths) (x : Nat) : m.cv l = some x ↔ Mate m0 pf l x := by
  refine ⟨I.sound l hl x, fun h => I.done l hl ?_ x h⟩
  by_contra hge
  have := (I.at_mem (m.vert l) l).2 ⟨hl, rfl⟩
  rw [List.getD_eq_default _ _ (by omega)] at this
  cases this

theorem Inv.ok {m0 m : Mesh} {pf : Nat → Nat} (B : Base m0 pf) (I : Inv m0 pf m.atVert.length m) : Ok m := by
  have hN := I.laths
  refine ⟨?_, ?_, ?_, ?_, ?_⟩
  · intro l hl; rw [I.cf, hN]; exact B.cf_lt l (hN ▸ hl)
  · intro l hl x hx e
    rw [I.cf] at e
    rw [← B.pf_cf l (hN ▸ hl), e, B.pf_cf x (hN ▸ hx)]
  · intro l hl x e; rw [hN]; exact ((I.cv_iff (hN ▸ hl) x).1 e).2.1
  · intro l hl x e
    have h := (I.cv_iff (hN ▸ hl) x).1 e
    refine ⟨pf l, ?_, by rw [I.cf]; exact B.cf_pf l (hN ▸ hl)⟩
    rw [I.cf]
    exact (I.cv_iff (B.cf_lt x h.2.1) _).2 (h.back B)
  · intro l hl x e
    exact (I.i1 l x ((I.cv_iff (hN ▸ hl) x).1 e)).symm

end Verif.Geom.Lath
