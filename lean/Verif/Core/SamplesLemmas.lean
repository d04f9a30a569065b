import Verif.Core.Samples
import Mathlib.Tactic.Linarith
import Mathlib.Tactic.SplitIfs
import Mathlib.Tactic.Ring

/-!
Lemmas for the combination of sample hits.
-/

namespace Verif.Core.Samples

/-! ## Specification -/

/-- What is assumed of a hit: it lies in the bound of its micropolygon and before `FLT_MAX`, its
opacity is between 0 and 1, and 1 if the micropolygon is opaque. -/
structure Fair (o : Opts) (h : Hit) : Prop where
  bound : h.zBound ≤ h.z
  near : h.z < o.far
  range : ∀ c, 0 ≤ h.opa c ∧ h.opa c ≤ 1
  full : h.solid = true → ∀ c, h.opa c = 1

/-- Colour of a stack of surfaces, nearest first: each covers those behind it by its opacity; a matte
object covers but adds nothing. -/
def coverCol : List Hit → Fin 3 → ℚ
  | [], _ => 0
  | h :: t, c => (if h.matte = .matte then 0 else h.col c) + (1 - h.opa c) * coverCol t c

/-- Opacity of a stack of surfaces, nearest first. -/
def coverOpa : List Hit → Fin 3 → ℚ
  | [], _ => 0
  | h :: t, c => (if h.matte = .matte then 0 else h.opa c) + (1 - h.opa c) * coverOpa t c

/-- In order of depth, all depths different. -/
def Ascending (l : List Hit) : Prop := l.Pairwise fun a b => a.z < b.z

/-! ## Agreement of what is stored with what was hit -/

theorem asc_inj {l : List Hit} (h : Ascending l) {a b : Hit} (ha : a ∈ l) (hb : b ∈ l) (hz : a.z = b.z) :
    a = b := by
  induction l with
  | nil => cases ha
  | cons x t ih =>
    obtain ⟨h1, h2⟩ := List.pairwise_cons.1 h
    rcases List.mem_cons.1 ha with hax | hat <;> rcases List.mem_cons.1 hb with hbx | hbt
    · rw [hax, hbx]
    · have := h1 b hbt; rw [hax] at hz; linarith
    · have := h1 a hat; rw [hbx] at hz; linarith
    · exact ih h2 hat hbt

/-- Two lists that are equal as far as the first opaque hit. -/
def Agree (L S : List Hit) : Prop :=
  L = S ∨ ∃ A q B B', L = A ++ q :: B ∧ S = A ++ q :: B' ∧ q.solid = true

theorem agree_of {S : List Hit} : ∀ {L : List Hit}, Ascending L → Ascending S → (∀ h ∈ L, h ∈ S) →
    (∀ h ∈ S, h ∈ L ∨ ∃ q ∈ L, q.solid = true ∧ q.z < h.z) → Agree L S := by
  induction S with
  | nil =>
    intro L _ _ hsub _
    cases L with
    | nil => exact .inl rfl
    | cons x t => cases hsub x (by simp)
  | cons h t ih =>
    intro L hL hS hsub hcov
    obtain ⟨hS1, hS2⟩ := List.pairwise_cons.1 hS
    have hmem : h ∈ L := by
      rcases hcov h (by simp) with hm | ⟨q, hq, _, hz⟩
      · exact hm
      · rcases List.mem_cons.1 (hsub q hq) with rfl | hq'
        · exact hq
        · have := hS1 q hq'; linarith
    cases L with
    | nil => cases hmem
    | cons x L' =>
      obtain ⟨hL1, hL2⟩ := List.pairwise_cons.1 hL
      have hx : x = h := by
        rcases List.mem_cons.1 hmem with rfl | hm
        · rfl
        · have h1 := hL1 h hm
          rcases List.mem_cons.1 (hsub x (by simp)) with rfl | hx'
          · rfl
          · have := hS1 x hx'; linarith
      subst hx
      by_cases hs : x.solid = true
      · exact .inr ⟨[], x, L', t, rfl, rfl, hs⟩
      · have := ih (L := L') hL2 hS2 (by
          intro g hg
          rcases List.mem_cons.1 (hsub g (by simp [hg])) with rfl | hm
          · have := hL1 g hg; linarith
          · exact hm) (by
          intro g hg
          rcases hcov g (by simp [hg]) with hm | ⟨q, hq, hqs, hz⟩
          · rcases List.mem_cons.1 hm with rfl | hm
            · have := hS1 g hg; linarith
            · exact .inl hm
          · rcases List.mem_cons.1 hq with rfl | hq
            · exact absurd hqs hs
            · exact .inr ⟨q, hq, hqs, hz⟩)
        rcases this with rfl | ⟨A, q, B, B', rfl, rfl, hq⟩
        · exact .inl rfl
        · exact .inr ⟨x :: A, q, B, B', rfl, rfl, hq⟩

theorem coverCol_agree {L S : List Hit} (h : Agree L S) (hf : ∀ g ∈ S, g.solid = true → ∀ c, g.opa c = 1)
    (c : Fin 3) : coverCol L c = coverCol S c := by
  rcases h with rfl | ⟨A, q, B, B', rfl, rfl, hq⟩
  · rfl
  · have h1 := hf q (by simp) hq c
    clear hf
    induction A with
    | nil => simp [coverCol, h1]
    | cons x A ih => simp only [List.cons_append, coverCol, ih]

theorem coverOpa_agree {L S : List Hit} (h : Agree L S) (hf : ∀ g ∈ S, g.solid = true → ∀ c, g.opa c = 1)
    (c : Fin 3) : coverOpa L c = coverOpa S c := by
  rcases h with rfl | ⟨A, q, B, B', rfl, rfl, hq⟩
  · rfl
  · have h1 := hf q (by simp) hq c
    clear hf
    induction A with
    | nil => simp [coverOpa, h1]
    | cons x A ih => simp only [List.cons_append, coverOpa, ih]

theorem filter_agree {L S : List Hit} (h : Agree L S) (p : Hit → Bool) (hp : ∀ g ∈ S, g.solid = true → p g = true) :
    (L.filter p).head? = (S.filter p).head? := by
  rcases h with rfl | ⟨A, q, B, B', rfl, rfl, hq⟩
  · rfl
  · have h1 := hp q (by simp) hq
    clear hp
    induction A with
    | nil => simp [h1]
    | cons x A ih =>
      simp only [List.cons_append, List.filter_cons]
      split_ifs
      · rfl
      · exact ih

theorem head_agree {L S : List Hit} (h : Agree L S) : L.head? = S.head? := by
  rcases h with rfl | ⟨A, q, B, B', rfl, rfl, _⟩
  · rfl
  · cases A <;> rfl

/-! ## The invariant of storing -/

/-- Is the special case of the depth filter "midpoint" in use? -/
def Opts.mid (o : Opts) : Prop := o.zMode = true ∧ o.filter = .midPoint

/-- What holds after the hits `P`. -/
structure Inv (o : Opts) (P : List Hit) (s : Sample) : Prop where
  data : ∀ e ∈ s.data, e.hit ∈ P ∧ (o.cullable = true → e.hit.solid = false) ∧
    ∀ x, e.hit.extra = some x → e.extra = x
  occl : ∀ q, s.occl = some q → q ∈ P ∧ q.solid = true ∧ o.cullable = true ∧
    (∀ x, q.extra = some x → s.mem = x) ∧ q.z ≤ s.occlZ ∧ (¬ o.mid → s.occlZ = q.z) ∧
    ∀ p ∈ P, p.solid = true → q.z ≤ p.z
  free : s.occl = none → s.occlZ = o.far ∧ (o.cullable = true → ∀ p ∈ P, p.solid = false)
  nodup : (s.entries.map fun e => e.hit.z).Nodup
  all : ∀ h ∈ P, h ∈ (s.entries.map fun e => e.hit) ∨ ∃ q, s.occl = some q ∧ q.z < h.z

theorem inv_clear (o : Opts) (m : ℚ) : Inv o [] (Sample.clear o m) :=
  ⟨by simp [Sample.clear], by simp [Sample.clear], by simp [Sample.clear],
    by simp [Sample.entries, Sample.clear], by simp⟩

theorem inv_store {o : Opts} {P : List Hit} {s : Sample} (h : Inv o P s) (g : Hit) (hg : Fair o g)
    (hm : g.matte ≠ .matteAlpha) (hz : ∀ p ∈ P, p.z ≠ g.z) : Inv o (P ++ [g]) (store o s g) := by
  have hdz : ∀ e ∈ s.data, e.hit.z ≠ g.z := fun e he => hz _ (h.data e he).1
  have hoz : ∀ q, s.occl = some q → q.z ≠ g.z := fun q hq => hz q (h.occl q hq).1
  unfold store
  split_ifs with hc hs hmid
  · -- culled
    obtain ⟨hcu, hle⟩ := hc
    cases ho : s.occl with
    | none => have := (h.free ho).1; have := hg.near; linarith
    | some q =>
      obtain ⟨q1, q2, q3, q4, q5, q6, q7⟩ := h.occl q ho
      have hlt : q.z < g.z := lt_of_le_of_ne (le_trans q5 hle) (hoz q ho)
      refine ⟨fun e he => ⟨by simp [(h.data e he).1], (h.data e he).2⟩, ?_, ?_, h.nodup, ?_⟩
      · intro q' hq'
        rw [ho] at hq'; cases hq'
        refine ⟨by simp [q1], q2, q3, q4, q5, q6, ?_⟩
        intro p hp hps
        rcases List.mem_append.1 hp with hp | hp
        · exact q7 p hp hps
        · rw [List.mem_singleton] at hp; subst hp; exact le_of_lt hlt
      · intro hn; rw [ho] at hn; cases hn
      · intro p hp
        rcases List.mem_append.1 hp with hp | hp
        · exact h.all p hp
        · rw [List.mem_singleton] at hp; subst hp; exact .inr ⟨q, ho, hlt⟩
  · -- opaque, midpoint
    have hsol : g.solid = true := hs.1.resolve_right hm
    cases ho : s.occl with
    | none =>
      have hf := h.free ho
      have hn : ¬ o.far < g.z := not_lt.2 (le_of_lt hg.near)
      simp only [if_neg hn]
      refine ⟨fun e he => ⟨by simp [(h.data e he).1], (h.data e he).2⟩, ?_, ?_, ?_, ?_⟩
      · intro q hq
        simp only [Option.some.injEq] at hq
        subst hq
        refine ⟨by simp, hsol, hs.2, fun x hx => by simp [hx], le_of_lt hg.near, ?_, ?_⟩
        · intro hn; exact absurd hmid hn
        · intro p hp hps
          rcases List.mem_append.1 hp with hp | hp
          · have := hf.2 hs.2 p hp; rw [this] at hps; cases hps
          · rw [List.mem_singleton] at hp; subst hp; exact le_refl _
      · intro hn; cases hn
      · have := h.nodup
        simp only [Sample.entries, ho, Option.toList, List.map_nil, List.append_nil, List.map_append, List.map_cons] at this ⊢
        rw [List.nodup_append]
        refine ⟨this, by simp, ?_⟩
        intro a ha b hb hab
        obtain ⟨e, he, rfl⟩ := List.mem_map.1 ha
        simp only [List.mem_singleton] at hb
        exact hdz e he (hab.trans hb)
      · intro p hp
        rcases List.mem_append.1 hp with hp | hp
        · rcases h.all p hp with ha | ⟨q, hq, _⟩
          · left
            simp only [Sample.entries, ho, Option.toList, List.map_nil, List.append_nil, List.map_append, List.map_cons] at ha ⊢
            simp [ha]
          · rw [ho] at hq; cases hq
        · rw [List.mem_singleton] at hp; subst hp
          left; simp [Sample.entries]
    | some q =>
      obtain ⟨q1, q2, q3, q4, q5, q6, q7⟩ := h.occl q ho
      by_cases hlt : q.z < g.z
      · simp only [if_pos hlt]
        refine ⟨fun e he => ⟨by simp [(h.data e he).1], (h.data e he).2⟩, ?_, ?_, ?_, ?_⟩
        · intro q' hq'
          simp only [Option.some.injEq] at hq'
          subst hq'
          refine ⟨by simp [q1], q2, q3, q4, le_of_lt hlt, fun hn => absurd hmid hn, ?_⟩
          intro p hp hps
          rcases List.mem_append.1 hp with hp | hp
          · exact q7 p hp hps
          · rw [List.mem_singleton] at hp; subst hp; exact le_of_lt hlt
        · intro hn; cases hn
        · have := h.nodup; simpa only [Sample.entries, ho] using this
        · intro p hp
          rcases List.mem_append.1 hp with hp | hp
          · have := h.all p hp; simpa only [Sample.entries, ho] using this
          · rw [List.mem_singleton] at hp; subst hp
            exact .inr ⟨q, rfl, hlt⟩
      · simp only [if_neg hlt]
        have hlt' : g.z < q.z := lt_of_le_of_ne (not_lt.1 hlt) (Ne.symm (hoz q ho))
        refine ⟨fun e he => ⟨by simp [(h.data e he).1], (h.data e he).2⟩, ?_, ?_, ?_, ?_⟩
        · intro q' hq'
          simp only [Option.some.injEq] at hq'
          subst hq'
          refine ⟨by simp, hsol, hs.2, fun x hx => by simp [hx], not_lt.1 hlt, fun hn => absurd hmid hn, ?_⟩
          intro p hp hps
          rcases List.mem_append.1 hp with hp | hp
          · have := q7 p hp hps; linarith
          · rw [List.mem_singleton] at hp; subst hp; exact le_refl _
        · intro hn; cases hn
        · have := h.nodup
          simp only [Sample.entries, ho, Option.toList, List.map_append, List.map_cons, List.map_nil] at this ⊢
          rw [List.nodup_append] at this ⊢
          refine ⟨this.1, by simp, ?_⟩
          intro a ha b hb hab
          obtain ⟨e, he, rfl⟩ := List.mem_map.1 ha
          simp only [List.mem_singleton] at hb
          exact hdz e he (hab.trans hb)
        · intro p hp
          rcases List.mem_append.1 hp with hp | hp
          · rcases h.all p hp with ha | ⟨q', hq', hqz⟩
            · simp only [Sample.entries, ho, Option.toList, List.map_append, List.map_cons, List.map_nil,
                List.mem_append, List.mem_singleton] at ha ⊢
              rcases ha with ha | rfl
              · exact .inl (.inl ha)
              · exact .inr ⟨g, rfl, hlt'⟩
            · rw [ho] at hq'; cases hq'
              exact .inr ⟨g, rfl, by linarith⟩
          · rw [List.mem_singleton] at hp; subst hp
            left; simp [Sample.entries]
  · -- opaque, not midpoint
    have hsol : g.solid = true := hs.1.resolve_right hm
    have hnc : g.z < s.occlZ := by
      by_contra hh
      exact hc ⟨hs.2, not_lt.1 hh⟩
    have hnear : ∀ q, s.occl = some q → g.z < q.z := by
      intro q ho
      have := (h.occl q ho).2.2.2.2.2.1 hmid
      rw [← this]; exact hnc
    refine ⟨fun e he => ⟨by simp [(h.data e he).1], (h.data e he).2⟩, ?_, ?_, ?_, ?_⟩
    · intro q' hq'
      simp only [Option.some.injEq] at hq'
      subst hq'
      refine ⟨by simp, hsol, hs.2, fun x hx => by simp [hx], le_refl _, fun _ => rfl, ?_⟩
      intro p hp hps
      rcases List.mem_append.1 hp with hp | hp
      · cases ho : s.occl with
        | none => have := (h.free ho).2 hs.2 p hp; rw [this] at hps; cases hps
        | some q =>
          have h1 := (h.occl q ho).2.2.2.2.2.2 p hp hps
          have h2 := hnear q ho
          linarith
      · rw [List.mem_singleton] at hp; subst hp; exact le_refl _
    · intro hn; cases hn
    · have := h.nodup
      simp only [Sample.entries, Option.toList, List.map_append, List.map_cons, List.map_nil] at this ⊢
      rw [List.nodup_append] at this ⊢
      refine ⟨this.1, by simp, ?_⟩
      intro a ha b hb hab
      obtain ⟨e, he, rfl⟩ := List.mem_map.1 ha
      simp only [List.mem_singleton] at hb
      exact hdz e he (hab.trans hb)
    · intro p hp
      rcases List.mem_append.1 hp with hp | hp
      · rcases h.all p hp with ha | ⟨q', hq', hqz⟩
        · simp only [Sample.entries, Option.toList, List.map_append, List.map_cons, List.map_nil,
            List.mem_append, List.mem_singleton] at ha ⊢
          rcases ha with ha | ha
          · exact .inl (.inl ha)
          · cases ho : s.occl with
            | none => rw [ho] at ha; simp at ha
            | some q =>
              rw [ho] at ha
              simp only [List.map_cons, List.map_nil, List.mem_singleton] at ha
              subst ha
              exact .inr ⟨g, rfl, hnear p ho⟩
        · exact .inr ⟨g, rfl, by have := hnear q' hq'; linarith⟩
      · rw [List.mem_singleton] at hp; subst hp
        left; simp [Sample.entries]
  · -- kept
    have hnc : o.cullable = true → g.solid = false := by
      intro hcu
      cases hx : g.solid
      · rfl
      · exact absurd ⟨.inl hx, hcu⟩ hs
    refine ⟨?_, ?_, ?_, ?_, ?_⟩
    · intro e he
      rcases List.mem_append.1 he with he | he
      · exact ⟨by simp [(h.data e he).1], (h.data e he).2⟩
      · rw [List.mem_singleton] at he; subst he
        exact ⟨by simp, hnc, fun x hx => by simp only at hx; simp [hx]⟩
    · intro q hq
      obtain ⟨q1, q2, q3, q4, q5, q6, q7⟩ := h.occl q hq
      refine ⟨by simp [q1], q2, q3, q4, q5, q6, ?_⟩
      intro p hp hps
      rcases List.mem_append.1 hp with hp | hp
      · exact q7 p hp hps
      · rw [List.mem_singleton] at hp; subst hp
        rw [hnc q3] at hps; cases hps
    · intro hn
      refine ⟨(h.free hn).1, fun hcu p hp => ?_⟩
      rcases List.mem_append.1 hp with hp | hp
      · exact (h.free hn).2 hcu p hp
      · rw [List.mem_singleton] at hp; subst hp; exact hnc hcu
    · have := h.nodup
      have hp : (({ s with data := s.data ++ [⟨g, g.extra.getD 0⟩] } : Sample).entries).Perm
          (⟨g, g.extra.getD 0⟩ :: s.entries) := by
        simp only [Sample.entries, List.append_assoc, List.singleton_append]
        exact List.perm_middle
      refine ((hp.map fun e => e.hit.z).nodup_iff).2 ?_
      rw [List.map_cons, List.nodup_cons]
      refine ⟨?_, this⟩
      intro hmem
      obtain ⟨e, he, hez⟩ := List.mem_map.1 hmem
      rcases List.mem_append.1 he with he | he
      · exact hdz e he hez
      · obtain ⟨q, hq, rfl⟩ := List.mem_map.1 he
        exact hoz q (by simpa using hq) hez
    · intro p hp
      rcases List.mem_append.1 hp with hp | hp
      · rcases h.all p hp with ha | ha
        · left
          simp only [Sample.entries, List.map_append, List.mem_append] at ha ⊢
          tauto
        · exact .inr ha
      · rw [List.mem_singleton] at hp; subst hp
        left; simp [Sample.entries]

theorem sample_eq_store {o : Opts} {P : List Hit} {s : Sample} (h : Inv o P s) {g : Hit} (hg : Fair o g) :
    sample o s g = store o s g := by
  unfold sample
  split_ifs with hc
  · have h1 := hg.bound
    unfold store
    rw [if_pos ⟨hc.1, by linarith [hc.2]⟩]
  · rfl

theorem inv_all {o : Opts} : ∀ (hs P : List Hit) (s : Sample), Inv o P s → (∀ h ∈ hs, Fair o h) →
    (∀ h ∈ hs, h.matte ≠ .matteAlpha) → ((P ++ hs).map fun h => h.z).Nodup →
    Inv o (P ++ hs) (sampleAll o s hs) := by
  intro hs
  induction hs with
  | nil => intro P s h _ _ _; simpa [sampleAll] using h
  | cons g hs ih =>
    intro P s h hf hm hn
    have hz : ∀ p ∈ P, p.z ≠ g.z := by
      intro p hp hpz
      rw [List.map_append, List.nodup_append] at hn
      exact hn.2.2 p.z (List.mem_map_of_mem hp) g.z (by simp) hpz
    have h1 := inv_store h g (hf g (by simp)) (hm g (by simp)) hz
    rw [← sample_eq_store h (hf g (by simp))] at h1
    have := ih (P ++ [g]) _ h1 (fun x hx => hf x (by simp [hx])) (fun x hx => hm x (by simp [hx]))
      (by simpa using hn)
    simpa [sampleAll] using this

/-- The sorted entries agree with the hits in order. -/
theorem agree_sorted {o : Opts} {P S : List Hit} {s : Sample} {es : List Entry} (h : Inv o P s)
    (hs : IsSort s.entries es) (hS : S.Perm P) (ha : Ascending S) :
    Agree (es.map fun e => e.hit) S ∧ Ascending (es.map fun e => e.hit) := by
  have hasc : Ascending (es.map fun e => e.hit) := by
    have hnd : (es.map fun e => e.hit.z).Nodup := ((hs.1.map _).nodup_iff).2 h.nodup
    have h2 := hs.2
    clear hs
    induction es with
    | nil => exact List.Pairwise.nil
    | cons e es ih =>
      rw [List.map_cons, List.nodup_cons] at hnd
      obtain ⟨h3, h4⟩ := List.pairwise_cons.1 h2
      refine List.pairwise_cons.2 ⟨?_, ih hnd.2 h4⟩
      intro b hb
      obtain ⟨e', he', rfl⟩ := List.mem_map.1 hb
      refine lt_of_le_of_ne (h3 e' he') fun hez => hnd.1 ?_
      rw [hez]; exact List.mem_map.2 ⟨e', he', rfl⟩
  refine ⟨agree_of hasc ha ?_ ?_, hasc⟩
  · intro g hg
    obtain ⟨e, he, rfl⟩ := List.mem_map.1 hg
    rw [hS.mem_iff]
    rcases List.mem_append.1 (hs.1.mem_iff.1 he) with he | he
    · exact (h.data e he).1
    · obtain ⟨q, hq, rfl⟩ := List.mem_map.1 he
      exact (h.occl q (by simpa using hq)).1
  · intro g hg
    rcases h.all g (hS.mem_iff.1 hg) with h1 | ⟨q, hq, hz⟩
    · obtain ⟨e, he, rfl⟩ := List.mem_map.1 h1
      exact .inl (List.mem_map.2 ⟨e, hs.1.mem_iff.2 he, rfl⟩)
    · refine .inr ⟨q, List.mem_map.2 ⟨⟨q, s.mem⟩, hs.1.mem_iff.2 ?_, rfl⟩, (h.occl q hq).2.1, hz⟩
      simp [Sample.entries, hq]

/-! ## The loop of the combination -/

theorem clamp_of {x : ℚ} (h : 0 ≤ x ∧ x ≤ 1) : clamp x = x := by
  unfold clamp
  rw [if_neg (not_lt.2 h.1), if_neg (not_lt.2 h.2)]

theorem fold_col {o : Opts} {es : List Entry} (h : ∀ e ∈ es, ∀ c, 0 ≤ e.hit.opa c ∧ e.hit.opa c ≤ 1) (a : Acc)
    (ha : ∀ c, a.col c = 0) (c : Fin 3) :
    (es.foldr (accumulate o) a).col c = coverCol (es.map fun e => e.hit) c := by
  induction es with
  | nil => exact ha c
  | cons e es ih =>
    have ih := ih fun e he => h e (by simp [he])
    rw [List.foldr_cons, List.map_cons, coverCol, ← ih]
    have hc := clamp_of (h e (by simp) c)
    unfold accumulate
    simp only
    by_cases hm : e.hit.matte = .matte
    · simp only [if_pos hm]
      split_ifs <;> simp [lerp]
    · simp only [if_neg hm]
      split_ifs <;> (simp only [hc]; ring)

theorem fold_opa {o : Opts} {es : List Entry} (h : ∀ e ∈ es, e.hit.matte ≠ .matte) (a : Acc)
    (ha : ∀ c, a.opa c = 0) (c : Fin 3) :
    (es.foldr (accumulate o) a).opa c = coverOpa (es.map fun e => e.hit) c := by
  induction es with
  | nil => exact ha c
  | cons e es ih =>
    have ih := ih fun e he => h e (by simp [he])
    rw [List.foldr_cons, List.map_cons, coverOpa, ← ih]
    have hm := h e (by simp)
    unfold accumulate
    simp only [if_neg hm]
    split_ifs <;> (simp only; ring)

theorem fold_d0 {o : Opts} {es : List Entry} (a : Acc) :
    (es.foldr (accumulate o) a).d0 =
      (((es.map fun e => e.hit).filter o.meets).map fun h => h.z).head?.getD a.d0 := by
  induction es with
  | nil => rfl
  | cons e es ih =>
    rw [List.foldr_cons, List.map_cons, List.filter_cons]
    unfold accumulate
    simp only
    by_cases hm : o.meets e.hit = true
    · simp [hm]
    · simp only [hm, if_false, Bool.false_eq_true]
      split_ifs <;> exact ih

theorem fold_dmax {o : Opts} {es : List Entry} (h : ∀ e ∈ es, e.hit.z < o.far) (a : Acc) (ha : a.dmax = o.far) :
    (es.foldr (accumulate o) a).dmax =
      (((es.map fun e => e.hit).filter o.meets).map fun h => h.z).getLast?.getD o.far := by
  induction es with
  | nil => exact ha
  | cons e es ih =>
    have ih := ih fun e he => h e (by simp [he])
    rw [List.foldr_cons, List.map_cons, List.filter_cons]
    by_cases hm : o.meets e.hit = true
    · have hx : (accumulate o e (es.foldr (accumulate o) a)).dmax =
          if (es.foldr (accumulate o) a).dmax < o.far then (es.foldr (accumulate o) a).dmax else e.hit.z := by
        unfold accumulate
        simp only [hm, if_true]
        split_ifs <;> rfl
      rw [hx, ih, if_pos hm, List.map_cons]
      cases hl : ((es.map fun e => e.hit).filter o.meets).map (fun h => h.z) with
      | nil => simp
      | cons x l =>
        have hmem : ((x :: l).getLast (by simp)) ∈ ((es.map fun e => e.hit).filter o.meets).map (fun h => h.z) := by
          rw [hl]; exact List.getLast_mem _
        obtain ⟨g, hg, hgz⟩ := List.mem_map.1 hmem
        obtain ⟨e', he', rfl⟩ := List.mem_map.1 (List.mem_filter.1 hg).1
        have hlt := h e' (by simp [he'])
        rw [List.getLast?_cons_cons, List.getLast?_eq_some_getLast (by simp : x :: l ≠ []), Option.getD_some,
          if_pos (by rw [← hgz]; exact hlt)]
    · have hx : (accumulate o e (es.foldr (accumulate o) a)).dmax = (es.foldr (accumulate o) a).dmax := by
        unfold accumulate
        simp only [hm, Bool.false_eq_true, if_false]
        split_ifs <;> rfl
      rw [hx, ih, if_neg hm]

end Verif.Core.Samples
