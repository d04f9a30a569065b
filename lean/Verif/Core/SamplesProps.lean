import Verif.Core.SamplesLemmas
import Mathlib.Algebra.BigOperators.Group.List.Basic
import Mathlib.Tactic.NormNum

/-!
# C51: the hits at a sample point are composed in order of depth, in whatever order they arrive
-/

namespace Verif.Core.Samples

variable {o : Opts} {m : ℚ} {hs S : List Hit} {r : Option Result}

/-- What is assumed of the hits at a sample point: each is fair, no two have the same depth. -/
structure Scene (o : Opts) (hs : List Hit) : Prop where
  fair : ∀ h ∈ hs, Fair o h
  apart : (hs.map fun h => h.z).Nodup

theorem scene_inv (h : Scene o hs) (hm : ∀ h ∈ hs, h.matte ≠ .matteAlpha) (m : ℚ) :
    Inv o hs (sampleAll o (Sample.clear o m) hs) := by
  simpa using inv_all hs [] _ (inv_clear o m) h.fair hm (by simpa using h.apart)

theorem entries_of_nil {s : Sample} (hd : s.data = []) {es : List Entry} (hi : IsSort s.entries es) :
    es = s.occl.toList.map fun h => ⟨h, s.mem⟩ := by
  have := hi.1
  rw [Sample.entries, hd, List.nil_append] at this
  cases ho : s.occl with
  | none => rw [ho] at this; exact List.perm_nil.1 this
  | some q => rw [ho] at this; exact List.perm_singleton.1 this

theorem combine_nil {s : Sample} {es : List Entry} (hd : s.data = []) : combine o s es =
    s.occl.map fun h =>
      { col := if h.matte = .matte then fun _ => 0 else h.col
        opa := if h.matte = .matte then fun _ => 0 else h.opa
        z := some (if o.filter = .midPoint then (h.z + s.occlZ) / 2 else h.z)
        extra := s.mem } := if_pos hd

theorem combine_data {s : Sample} {es : List Entry} (hd : ¬ s.data = []) : combine o s es =
    es.head?.map fun e =>
      { col := (es.foldr (accumulate o) ⟨fun _ => 0, fun _ => 0, s.occlZ, o.far, o.far⟩).col
        opa := (es.foldr (accumulate o) ⟨fun _ => 0, fun _ => 0, s.occlZ, o.far, o.far⟩).opa
        z := match o.filter with
          | .min => some (es.foldr (accumulate o) ⟨fun _ => 0, fun _ => 0, s.occlZ, o.far, o.far⟩).d0
          | .midPoint => some (if es.length > 1 then
              ((es.foldr (accumulate o) ⟨fun _ => 0, fun _ => 0, s.occlZ, o.far, o.far⟩).d0 +
                (es.foldr (accumulate o) ⟨fun _ => 0, fun _ => 0, s.occlZ, o.far, o.far⟩).d1) / 2 else o.far)
          | .max => some (es.foldr (accumulate o) ⟨fun _ => 0, fun _ => 0, s.occlZ, o.far, o.far⟩).dmax
          | .average => average o es
        extra := e.extra } := if_neg hd

/-- **C51.**  The sample is marked valid exactly if there was a hit. -/
theorem C51_valid (h : Scene o hs) (hm : ∀ h ∈ hs, h.matte ≠ .matteAlpha) (ho : Outcome o m hs r) :
    r.isSome = true ↔ hs ≠ [] := by
  obtain ⟨es, hi, rfl⟩ := ho
  have inv := scene_inv h hm m
  generalize sampleAll o (Sample.clear o m) hs = s at inv hi
  have hne : hs ≠ [] ↔ s.entries ≠ [] := by
    constructor
    · intro hn he
      obtain ⟨g, t, rfl⟩ := List.exists_cons_of_ne_nil hn
      rcases inv.all g (by simp) with h1 | ⟨q, hq, _⟩
      · rw [he] at h1; cases h1
      · simp [Sample.entries, hq] at he
    · rintro hn rfl
      obtain ⟨e, t, he⟩ := List.exists_cons_of_ne_nil hn
      have : e ∈ s.entries := by rw [he]; simp
      rcases List.mem_append.1 this with h1 | h1
      · cases (inv.data e h1).1
      · obtain ⟨q, hq, rfl⟩ := List.mem_map.1 h1
        cases (inv.occl q (by simpa using hq)).1
  rw [hne]
  by_cases hd : s.data = []
  · rw [combine_nil hd]
    cases hoc : s.occl <;> simp [Sample.entries, hd, hoc]
  · rw [combine_data hd]
    cases es with
    | nil =>
      have := List.nil_perm.1 hi.1
      simp [this]
    | cons e es =>
      have : s.entries ≠ [] := by
        intro hn; rw [hn] at hi; have := List.perm_nil.1 hi.1; cases this
      simp [this]

/-- **C51.**  Colour: every hit covers what is behind it by its opacity — whatever the order in which
the hits arrived, whatever was culled, stored apart, or left to the sort. -/
theorem C51_colour_partial (h : Scene o hs) (hm : ∀ h ∈ hs, h.matte ≠ .matteAlpha) (ho : Outcome o m hs r)
    (hp : S.Perm hs) (ha : Ascending S) (v : Result) (hv : r = some v) (c : Fin 3) :
    v.col c = coverCol S c := by
  obtain ⟨es, hi, rfl⟩ := ho
  have inv := scene_inv h hm m
  generalize sampleAll o (Sample.clear o m) hs = s at inv hi hv
  have hag := (agree_sorted inv hi hp ha).1
  have hfull : ∀ g ∈ S, g.solid = true → ∀ c, g.opa c = 1 := fun g hg => (h.fair g (hp.mem_iff.1 hg)).full
  rw [← coverCol_agree hag hfull]
  by_cases hd : s.data = []
  · rw [combine_nil hd] at hv
    rw [entries_of_nil hd hi]
    cases hoc : s.occl with
    | none => rw [hoc] at hv; cases hv
    | some q =>
      rw [hoc] at hv
      simp only [Option.map_some, Option.some.injEq] at hv
      subst hv
      by_cases hq : q.matte = .matte <;> simp [coverCol, hq]
  · rw [combine_data hd] at hv
    cases he : es.head? with
    | none => rw [he] at hv; cases hv
    | some e =>
      rw [he] at hv
      simp only [Option.map_some, Option.some.injEq] at hv
      subst hv
      refine fold_col ?_ _ (fun _ => rfl) c
      intro e' he'
      have : e'.hit ∈ hs := by
        rcases List.mem_append.1 (hi.1.mem_iff.1 he') with h1 | h1
        · exact (inv.data e' h1).1
        · obtain ⟨q, hq, rfl⟩ := List.mem_map.1 h1
          exact (inv.occl q (by simpa using hq)).1
      exact (h.fair _ this).range

/-- **C51.**  Opacity, for scenes without matte objects (see `C51_matte_opacity_violated`). -/
theorem C51_opacity_partial (h : Scene o hs) (hm : ∀ h ∈ hs, h.matte = .none) (ho : Outcome o m hs r)
    (hp : S.Perm hs) (ha : Ascending S) (v : Result) (hv : r = some v) (c : Fin 3) :
    v.opa c = coverOpa S c := by
  have hm' : ∀ h ∈ hs, h.matte ≠ .matteAlpha := fun g hg => by rw [hm g hg]; simp
  obtain ⟨es, hi, rfl⟩ := ho
  have inv := scene_inv h hm' m
  generalize sampleAll o (Sample.clear o m) hs = s at inv hi hv
  have hag := (agree_sorted inv hi hp ha).1
  have hfull : ∀ g ∈ S, g.solid = true → ∀ c, g.opa c = 1 := fun g hg => (h.fair g (hp.mem_iff.1 hg)).full
  have hmem : ∀ e' ∈ es, e'.hit ∈ hs := by
    intro e' he'
    rcases List.mem_append.1 (hi.1.mem_iff.1 he') with h1 | h1
    · exact (inv.data e' h1).1
    · obtain ⟨q, hq, rfl⟩ := List.mem_map.1 h1
      exact (inv.occl q (by simpa using hq)).1
  rw [← coverOpa_agree hag hfull]
  by_cases hd : s.data = []
  · rw [combine_nil hd] at hv
    have hes := entries_of_nil hd hi
    rw [hes]
    cases hoc : s.occl with
    | none => rw [hoc] at hv; cases hv
    | some q =>
      rw [hoc] at hv
      simp only [Option.map_some, Option.some.injEq] at hv
      subst hv
      have hq := hm q (inv.occl q hoc).1
      simp [coverOpa, hq]
  · rw [combine_data hd] at hv
    cases he : es.head? with
    | none => rw [he] at hv; cases hv
    | some e =>
      rw [he] at hv
      simp only [Option.map_some, Option.some.injEq] at hv
      subst hv
      exact fold_opa (fun e' he' => by rw [hm _ (hmem e' he')]; simp) _ (fun _ => rfl) c

/-- **C51.**  The result does not depend on the order of arrival, nor on how hits are sorted. -/
theorem C51_order_partial {hs' : List Hit} {m' : ℚ} {r' : Option Result} (h : Scene o hs)
    (hm : ∀ h ∈ hs, h.matte = .none) (hp : hs'.Perm hs) (ho : Outcome o m hs r) (ho' : Outcome o m' hs' r')
    (v v' : Result) (hv : r = some v) (hv' : r' = some v') : v.col = v'.col ∧ v.opa = v'.opa := by
  have h' : Scene o hs' := ⟨fun g hg => h.fair g (hp.mem_iff.1 hg), ((hp.map _).nodup_iff).2 h.apart⟩
  have hm' : ∀ h ∈ hs', h.matte = .none := fun g hg => hm g (hp.mem_iff.1 hg)
  let le : Hit → Hit → Bool := fun a b => decide (a.z ≤ b.z)
  have hS : (hs.mergeSort le).Perm hs := List.mergeSort_perm _ _
  have ha : Ascending (hs.mergeSort le) := by
    have h1 : (hs.mergeSort le).Pairwise fun a b => le a b = true :=
      List.pairwise_mergeSort (by intro a b c h1 h2; simp only [le, decide_eq_true_eq] at *; linarith)
        (by intro a b; simp only [le, Bool.or_eq_true, decide_eq_true_eq]; exact le_total _ _) hs
    have h2 : ((hs.mergeSort le).map fun h => h.z).Nodup := ((hS.map _).nodup_iff).2 h.apart
    have h3 := List.pairwise_map.1 h2
    exact (h1.and h3).imp fun ⟨h4, h5⟩ => lt_of_le_of_ne (by simpa [le] using h4) h5
  have na : ∀ l : List Hit, (∀ h ∈ l, h.matte = .none) → ∀ h ∈ l, h.matte ≠ .matteAlpha :=
    fun l hl g hg => by rw [hl g hg]; simp
  refine ⟨funext fun c => ?_, funext fun c => ?_⟩
  · rw [C51_colour_partial h (na _ hm) ho hS ha v hv c,
      C51_colour_partial h' (na _ hm') ho' (hS.trans hp.symm) ha v' hv' c]
  · rw [C51_opacity_partial h hm ho hS ha v hv c,
      C51_opacity_partial h' hm' ho' (hS.trans hp.symm) ha v' hv' c]

/-- **C51.**  Depth filter "min": the depth is that of the nearest hit that reaches the threshold, if
opaque surfaces do. -/
theorem C51_min_depth (h : Scene o hs) (hm : ∀ h ∈ hs, h.matte ≠ .matteAlpha) (hf : o.filter = .min)
    (ht : ∀ c, o.thr c ≤ 1) (ho : Outcome o m hs r) (hp : S.Perm hs) (ha : Ascending S) (v : Result)
    (hv : r = some v) :
    v.z = some (((S.filter fun h => decide (∀ c, o.thr c ≤ h.opa c)).map fun h => h.z).head?.getD o.far) := by
  have hmeets : (fun h : Hit => decide (∀ c, o.thr c ≤ h.opa c)) = o.meets := by
    funext g
    rw [Bool.eq_iff_iff]
    simp only [Opts.meets, decide_eq_true_eq, Bool.and_eq_true, ge_iff_le]
    constructor
    · intro hh; exact ⟨⟨hh 0, hh 1⟩, hh 2⟩
    · rintro ⟨⟨h0, h1⟩, h2⟩ c
      match c with
      | 0 => exact h0
      | 1 => exact h1
      | 2 => exact h2
  rw [hmeets]
  obtain ⟨es, hi, rfl⟩ := ho
  have inv := scene_inv h hm m
  generalize sampleAll o (Sample.clear o m) hs = s at inv hi hv
  have hag := (agree_sorted inv hi hp ha).1
  have hsol : ∀ g ∈ hs, g.solid = true → o.meets g = true := by
    intro g hg hs
    have h1 := (h.fair g hg).full hs
    simp only [Opts.meets, h1, ge_iff_le, Bool.and_eq_true, decide_eq_true_eq]
    exact ⟨⟨ht 0, ht 1⟩, ht 2⟩
  rw [List.head?_map, ← filter_agree hag o.meets (fun g hg => hsol g (hp.mem_iff.1 hg)), ← List.head?_map]
  by_cases hd : s.data = []
  · rw [combine_nil hd] at hv
    rw [entries_of_nil hd hi]
    cases hoc : s.occl with
    | none => rw [hoc] at hv; cases hv
    | some q =>
      rw [hoc] at hv
      simp only [Option.map_some, Option.some.injEq] at hv
      subst hv
      have hq := inv.occl q hoc
      simp [hf, hsol q hq.1 hq.2.1]
  · rw [combine_data hd] at hv
    cases he : es.head? with
    | none => rw [he] at hv; cases hv
    | some e =>
      rw [he] at hv
      simp only [Option.map_some, Option.some.injEq] at hv
      subst hv
      simp only [hf]
      rw [fold_d0]
      cases hoc : s.occl with
      | none => rw [(inv.free hoc).1]
      | some q =>
        have hq := inv.occl q hoc
        have hmem : q ∈ (es.map fun e => e.hit).filter o.meets := by
          refine List.mem_filter.2 ⟨List.mem_map.2 ⟨⟨q, s.mem⟩, hi.1.mem_iff.2 ?_, rfl⟩, hsol q hq.1 hq.2.1⟩
          simp [Sample.entries, hoc]
        obtain ⟨x, t, hx⟩ := List.exists_cons_of_ne_nil (List.ne_nil_of_mem hmem)
        simp [hx]

/-- With the depth filters "max" and "average" for a depth image every hit is stored. -/
theorem store_all (hc : o.cullable = false) (s : Sample) (hn : s.occl = none) :
    (sampleAll o s hs).data.map (fun e => e.hit) = s.data.map (fun e => e.hit) ++ hs ∧
      (sampleAll o s hs).occl = none := by
  induction hs generalizing s with
  | nil => simp [sampleAll, hn]
  | cons g hs ih =>
    have h1 : sample o s g = { s with data := s.data ++ [⟨g, g.extra.getD 0⟩] } := by
      simp [sample, store, hc]
    have := ih { s with data := s.data ++ [⟨g, g.extra.getD 0⟩] } hn
    simp only [sampleAll, List.foldl_cons, h1] at this ⊢
    simpa using this

/-- **C51.**  Depth filter "max": the depth is that of the farthest hit that reaches the threshold. -/
theorem C51_max_depth (h : Scene o hs) (hz : o.zMode = true) (hf : o.filter = .max) (ho : Outcome o m hs r)
    (hp : S.Perm hs) (ha : Ascending S) (v : Result) (hv : r = some v) :
    v.z = some (((S.filter fun h => decide (∀ c, o.thr c ≤ h.opa c)).map fun h => h.z).getLast?.getD o.far) := by
  have hmeets : (fun h : Hit => decide (∀ c, o.thr c ≤ h.opa c)) = o.meets := by
    funext g
    rw [Bool.eq_iff_iff]
    simp only [Opts.meets, decide_eq_true_eq, Bool.and_eq_true, ge_iff_le]
    constructor
    · intro hh; exact ⟨⟨hh 0, hh 1⟩, hh 2⟩
    · rintro ⟨⟨h0, h1⟩, h2⟩ c
      match c with
      | 0 => exact h0
      | 1 => exact h1
      | 2 => exact h2
  rw [hmeets]
  have hc : o.cullable = false := by simp [Opts.cullable, hz, hf]
  obtain ⟨es, hi, rfl⟩ := ho
  obtain ⟨hd, hoc⟩ := store_all (hs := hs) hc (Sample.clear o m) rfl
  generalize sampleAll o (Sample.clear o m) hs = s at hd hoc hi hv
  have hperm : (es.map fun e => e.hit).Perm hs := by
    have h1 := hi.1.map fun e => e.hit
    rw [Sample.entries, hoc] at h1
    simpa [hd, Sample.clear] using h1
  have hes : es.map (fun e => e.hit) = S := by
    have h2 : (es.map fun e => e.hit).Pairwise fun a b => a.z ≤ b.z := List.pairwise_map.2 hi.2
    have h3 : S.Pairwise fun a b => a.z ≤ b.z := ha.imp fun h => le_of_lt h
    refine List.Perm.eq_of_pairwise (fun a b hx hy h1 h2 => ?_) h2 h3 (hperm.trans hp.symm)
    exact asc_inj ha (hp.mem_iff.2 (hperm.mem_iff.1 hx)) hy (le_antisymm h1 h2)
  by_cases hdn : s.data = []
  · rw [combine_nil hdn] at hv
    rw [hoc] at hv; cases hv
  · rw [combine_data hdn] at hv
    cases he : es.head? with
    | none => rw [he] at hv; cases hv
    | some e =>
      rw [he] at hv
      simp only [Option.map_some, Option.some.injEq] at hv
      subst hv
      simp only [hf]
      rw [fold_dmax ?_ _ rfl, hes]
      intro e' he'
      exact (h.fair _ (hperm.mem_iff.1 (List.mem_map.2 ⟨e', he', rfl⟩))).near

/-- **C51.**  Depth filter "average": the mean depth of the hits that reach the threshold in some
channel, if there are any. -/
theorem C51_average_depth_partial (hz : o.zMode = true) (hf : o.filter = .average) (ho : Outcome o m hs r)
    (v : Result) (hv : r = some v)
    (hq : (hs.filter fun h => decide (∃ c, o.thr c ≤ h.opa c)) ≠ []) :
    v.z = some ((((hs.filter fun h => decide (∃ c, o.thr c ≤ h.opa c)).map fun h => h.z).sum) /
      (hs.filter fun h => decide (∃ c, o.thr c ≤ h.opa c)).length) := by
  have hmeets : (fun h : Hit => decide (∃ c, o.thr c ≤ h.opa c)) = o.meetsAny := by
    funext g
    rw [Bool.eq_iff_iff]
    simp only [Opts.meetsAny, decide_eq_true_eq, Bool.or_eq_true, ge_iff_le]
    constructor
    · rintro ⟨c, hc⟩
      match c, hc with
      | 0, hc => exact .inl (.inl hc)
      | 1, hc => exact .inl (.inr hc)
      | 2, hc => exact .inr hc
    · rintro ((h0 | h1) | h2)
      · exact ⟨0, h0⟩
      · exact ⟨1, h1⟩
      · exact ⟨2, h2⟩
  rw [hmeets] at hq ⊢
  have hc : o.cullable = false := by simp [Opts.cullable, hz, hf]
  obtain ⟨es, hi, rfl⟩ := ho
  obtain ⟨hd, hoc⟩ := store_all (hs := hs) hc (Sample.clear o m) rfl
  generalize sampleAll o (Sample.clear o m) hs = s at hd hoc hi hv
  have hperm : (es.map fun e => e.hit).Perm hs := by
    have h1 := hi.1.map fun e => e.hit
    rw [Sample.entries, hoc] at h1
    simpa [hd, Sample.clear] using h1
  have hav : average o es = some ((((hs.filter o.meetsAny).map fun h => h.z).sum) /
      (hs.filter o.meetsAny).length) := by
    have h1 : (es.filter fun e => o.meetsAny e.hit).map (fun e => e.hit) = (es.map fun e => e.hit).filter o.meetsAny := by
      rw [List.filter_map]; rfl
    have h2 : ((es.filter fun e => o.meetsAny e.hit).map fun e => e.hit).Perm (hs.filter o.meetsAny) := by
      rw [h1]; exact hperm.filter _
    have h3 : ((es.filter fun e => o.meetsAny e.hit).map fun e => e.hit.z).Perm
        ((hs.filter o.meetsAny).map fun h => h.z) := by
      have := h2.map fun h => h.z
      rwa [List.map_map] at this
    have h4 : (es.filter fun e => o.meetsAny e.hit).length = (hs.filter o.meetsAny).length := by
      have := h2.length_eq
      rwa [List.length_map] at this
    unfold average
    simp only [h4]
    rw [if_neg (by intro hn; exact hq (List.length_eq_zero_iff.1 hn)), h3.sum_eq]
  by_cases hdn : s.data = []
  · rw [combine_nil hdn] at hv
    rw [hoc] at hv; cases hv
  · rw [combine_data hdn] at hv
    cases he : es.head? with
    | none => rw [he] at hv; cases hv
    | some e =>
      rw [he] at hv
      simp only [Option.map_some, Option.some.injEq] at hv
      subst hv
      simp only [hf]
      exact hav

/-- **C51.**  The extra output is that of the nearest surface, if all surfaces have the variable. -/
theorem C51_extra_partial (h : Scene o hs) (hm : ∀ h ∈ hs, h.matte ≠ .matteAlpha)
    (hx : ∀ h ∈ hs, h.extra ≠ none) (ho : Outcome o m hs r) (n : Hit) (hn : n ∈ hs)
    (near : ∀ h ∈ hs, n.z ≤ h.z) (v : Result) (hv : r = some v) : n.extra = some v.extra := by
  obtain ⟨es, hi, rfl⟩ := ho
  have inv := scene_inv h hm m
  generalize sampleAll o (Sample.clear o m) hs = s at inv hi hv
  -- the nearest hit is stored
  have hmem : n ∈ es.map fun e => e.hit := by
    rcases inv.all n hn with h1 | ⟨q, hq, hz⟩
    · exact ((hi.1.map fun e => e.hit).mem_iff).2 h1
    · have := near q (inv.occl q hq).1; linarith
  have hin : ∀ e ∈ es, e.hit ∈ hs ∧ ∀ x, e.hit.extra = some x → e.extra = x := by
    intro e he
    rcases List.mem_append.1 (hi.1.mem_iff.1 he) with h1 | h1
    · exact ⟨(inv.data e h1).1, (inv.data e h1).2.2⟩
    · obtain ⟨q, hq, rfl⟩ := List.mem_map.1 h1
      have := inv.occl q (by simpa using hq)
      exact ⟨this.1, this.2.2.2.1⟩
  have hzinj : ∀ a ∈ hs, ∀ b ∈ hs, a.z = b.z → a = b := fun a ha b hb hab =>
    List.inj_on_of_nodup_map h.apart ha hb hab
  have key : ∀ e, es.head? = some e → e.hit = n ∧ n.extra = some e.extra := by
    intro e he
    obtain ⟨t, rfl⟩ : ∃ t, es = e :: t := by cases es with
      | nil => cases he
      | cons x t => simp only [List.head?_cons, Option.some.injEq] at he; subst he; exact ⟨t, rfl⟩
    have h1 : e.hit = n := by
      rcases List.mem_cons.1 hmem with h1 | h1
      · exact h1.symm
      · obtain ⟨e', he', rfl⟩ := List.mem_map.1 h1
        have h2 := (List.pairwise_cons.1 hi.2).1 e' he'
        have h3 := near e.hit (hin e (by simp)).1
        exact hzinj _ (hin e (by simp)).1 _ hn (le_antisymm h2 h3)
    refine ⟨h1, ?_⟩
    cases hex : n.extra with
    | none => exact absurd hex (hx n hn)
    | some x =>
      rw [(hin e (by simp)).2 x (by rw [h1, hex])]
  by_cases hd : s.data = []
  · rw [combine_nil hd] at hv
    have hes := entries_of_nil hd hi
    cases hoc : s.occl with
    | none => rw [hoc] at hv; cases hv
    | some q =>
      rw [hoc] at hv hes
      simp only [Option.map_some, Option.some.injEq] at hv
      subst hv
      exact (key ⟨q, s.mem⟩ (by rw [hes]; rfl)).2
  · rw [combine_data hd] at hv
    cases he : es.head? with
    | none => rw [he] at hv; cases hv
    | some e =>
      rw [he] at hv
      simp only [Option.map_some, Option.some.injEq] at hv
      subst hv
      exact (key e he).2

/-! ### The depth filter "midpoint" -/

/-- What is known of the second nearest opaque surface. -/
def Second (o : Opts) (P : List Hit) (s : Sample) : Prop :=
  ∀ q, s.occl = some q → (∀ p ∈ P, p.solid = true → p = q ∨ s.occlZ ≤ p.z) ∧
    (s.occlZ = o.far ∨ ∃ p ∈ P, p.solid = true ∧ p.z = s.occlZ ∧ q.z < p.z)

theorem second_store {P : List Hit} {s : Sample} (hmid : o.mid) (h : Inv o P s) (h2 : Second o P s) (g : Hit)
    (hg : Fair o g) (hm : g.matte ≠ .matteAlpha) (hz : ∀ p ∈ P, p.z ≠ g.z) :
    Second o (P ++ [g]) (store o s g) := by
  have hcu : o.cullable = true := by simp [Opts.cullable, hmid.2]
  unfold store
  split_ifs with hc hs hm'
  · intro q hq
    obtain ⟨a, b⟩ := h2 q hq
    refine ⟨?_, ?_⟩
    · intro p hp hps
      rcases List.mem_append.1 hp with hp | hp
      · exact a p hp hps
      · rw [List.mem_singleton] at hp; subst hp; exact .inr hc.2
    · rcases b with b | ⟨p, hp, hb⟩
      · exact .inl b
      · exact .inr ⟨p, by simp [hp], hb⟩
  · have hsol : g.solid = true := hs.1.resolve_right hm
    have hnc : g.z < s.occlZ := by
      by_contra hh
      exact hc ⟨hs.2, not_lt.1 hh⟩
    cases ho : s.occl with
    | none =>
      have hf := h.free ho
      simp only [if_neg (not_lt.2 (le_of_lt hg.near))]
      intro q hq
      simp only [Option.some.injEq] at hq
      subst hq
      refine ⟨?_, .inl rfl⟩
      intro p hp hps
      rcases List.mem_append.1 hp with hp | hp
      · have := hf.2 hcu p hp; rw [this] at hps; cases hps
      · rw [List.mem_singleton] at hp; exact .inl hp
    | some q =>
      obtain ⟨a, b⟩ := h2 q ho
      obtain ⟨q1, q2, q3, q4, q5, q6, q7⟩ := h.occl q ho
      by_cases hlt : q.z < g.z
      · simp only [if_pos hlt]
        intro q' hq'
        simp only [Option.some.injEq] at hq'
        subst hq'
        refine ⟨?_, .inr ⟨g, by simp, hsol, rfl, hlt⟩⟩
        intro p hp hps
        rcases List.mem_append.1 hp with hp | hp
        · rcases a p hp hps with h1 | h1
          · exact .inl h1
          · exact .inr (by simp only; linarith)
        · rw [List.mem_singleton] at hp; subst hp; exact .inr (le_refl _)
      · simp only [if_neg hlt]
        have hlt' : g.z < q.z := lt_of_le_of_ne (not_lt.1 hlt) (Ne.symm (hz q q1))
        intro q' hq'
        simp only [Option.some.injEq] at hq'
        subst hq'
        refine ⟨?_, .inr ⟨q, by simp [q1], q2, rfl, hlt'⟩⟩
        intro p hp hps
        rcases List.mem_append.1 hp with hp | hp
        · exact .inr (q7 p hp hps)
        · rw [List.mem_singleton] at hp; exact .inl hp
  · exact absurd hmid hm'
  · intro q hq
    obtain ⟨a, b⟩ := h2 q hq
    refine ⟨?_, ?_⟩
    · intro p hp hps
      rcases List.mem_append.1 hp with hp | hp
      · exact a p hp hps
      · rw [List.mem_singleton] at hp; subst hp
        exact absurd ⟨.inl hps, hcu⟩ hs
    · rcases b with b | ⟨p, hp, hb⟩
      · exact .inl b
      · exact .inr ⟨p, by simp [hp], hb⟩

theorem second_all (hmid : o.mid) : ∀ (hs P : List Hit) (s : Sample), Inv o P s → Second o P s →
    (∀ h ∈ hs, Fair o h) → (∀ h ∈ hs, h.matte ≠ .matteAlpha) → ((P ++ hs).map fun h => h.z).Nodup →
    Second o (P ++ hs) (sampleAll o s hs) := by
  intro hs
  induction hs with
  | nil => intro P s _ h _ _ _; simpa [sampleAll] using h
  | cons g hs ih =>
    intro P s h h2 hf hm hn
    have hz : ∀ p ∈ P, p.z ≠ g.z := by
      intro p hp hpz
      rw [List.map_append, List.nodup_append] at hn
      exact hn.2.2 p.z (List.mem_map_of_mem hp) g.z (by simp) hpz
    have h1 := inv_store h g (hf g (by simp)) (hm g (by simp)) hz
    have h3 := second_store hmid h h2 g (hf g (by simp)) (hm g (by simp)) hz
    rw [← sample_eq_store h (hf g (by simp))] at h1 h3
    have := ih (P ++ [g]) _ h1 h3 (fun x hx => hf x (by simp [hx])) (fun x hx => hm x (by simp [hx]))
      (by simpa using hn)
    simpa [sampleAll] using this

theorem fold_d1 {es : List Entry} (a : Acc) (q : Hit)
    (hq : (es.map fun e => e.hit).filter o.meets = [q]) :
    (es.foldr (accumulate o) a).d0 = q.z ∧ (es.foldr (accumulate o) a).d1 = a.d0 := by
  induction es with
  | nil => cases hq
  | cons e es ih =>
    rw [List.map_cons, List.filter_cons] at hq
    rw [List.foldr_cons]
    by_cases hm : o.meets e.hit = true
    · rw [if_pos hm] at hq
      simp only [List.cons.injEq] at hq
      have h0 : (es.foldr (accumulate o) a).d0 = a.d0 := by rw [fold_d0, hq.2]; rfl
      unfold accumulate
      simp only [hm, if_true]
      rw [← hq.1]
      split_ifs <;> exact ⟨rfl, h0⟩
    · rw [if_neg hm] at hq
      unfold accumulate
      simp only [hm, Bool.false_eq_true, if_false]
      split_ifs <;> exact ih hq

theorem fold_d1_none {es : List Entry} (a : Acc) (hq : (es.map fun e => e.hit).filter o.meets = []) :
    (es.foldr (accumulate o) a).d0 = a.d0 ∧ (es.foldr (accumulate o) a).d1 = a.d1 := by
  induction es with
  | nil => exact ⟨rfl, rfl⟩
  | cons e es ih =>
    rw [List.map_cons, List.filter_cons] at hq
    rw [List.foldr_cons]
    by_cases hm : o.meets e.hit = true
    · rw [if_pos hm] at hq; cases hq
    · rw [if_neg hm] at hq
      unfold accumulate
      simp only [hm, Bool.false_eq_true, if_false]
      split_ifs <;> exact ih hq

/-- **C51.**  Depth filter "midpoint" for a depth image: the depth lies half way between the two
nearest opaque surfaces (`FLT_MAX` for one that is missing), if the hits of opaque micropolygons are
those that reach the threshold (see `C51_midpoint_violated`). -/
theorem C51_midpoint_partial (h : Scene o hs) (hm : ∀ h ∈ hs, h.matte ≠ .matteAlpha) (hz : o.zMode = true)
    (hf : o.filter = .midPoint) (ht : ∀ h ∈ hs, (∀ c, o.thr c ≤ h.opa c) ↔ h.solid = true)
    (ho : Outcome o m hs r) (hp : S.Perm hs) (ha : Ascending S) (v : Result) (hv : r = some v) :
    v.z = some ((((S.filter fun h => h.solid).map fun h => h.z)[0]?.getD o.far +
      ((S.filter fun h => h.solid).map fun h => h.z)[1]?.getD o.far) / 2) := by
  have hmid : o.mid := ⟨hz, hf⟩
  have hcu : o.cullable = true := by simp [Opts.cullable, hf]
  have hmeets : ∀ g ∈ hs, (o.meets g = true ↔ g.solid = true) := by
    intro g hg
    rw [← ht g hg]
    simp only [Opts.meets, decide_eq_true_eq, Bool.and_eq_true, ge_iff_le]
    constructor
    · rintro ⟨⟨h0, h1⟩, h2⟩ c
      match c with
      | 0 => exact h0
      | 1 => exact h1
      | 2 => exact h2
    · intro hh; exact ⟨⟨hh 0, hh 1⟩, hh 2⟩
  obtain ⟨es, hi, rfl⟩ := ho
  have inv := scene_inv h hm m
  have sec : Second o hs (sampleAll o (Sample.clear o m) hs) := by
    simpa using second_all hmid hs [] _ (inv_clear o m) (by intro q hq; cases hq) h.fair hm (by simpa using h.apart)
  generalize sampleAll o (Sample.clear o m) hs = s at inv hi hv sec
  -- the two nearest opaque surfaces
  have two : ((S.filter fun h => h.solid).map fun h => h.z)[0]?.getD o.far = (s.occl.map fun h => h.z).getD o.far ∧
      ((S.filter fun h => h.solid).map fun h => h.z)[1]?.getD o.far = s.occlZ := by
    cases hoc : s.occl with
    | none =>
      have hfr := inv.free hoc
      have : S.filter (fun h => h.solid) = [] := by
        rw [List.filter_eq_nil_iff]
        intro g hg
        rw [hfr.2 hcu g (hp.mem_iff.1 hg)]; simp
      rw [this]
      simp [hfr.1]
    | some q =>
      obtain ⟨q1, q2, q3, q4, q5, q6, q7⟩ := inv.occl q hoc
      obtain ⟨sa, sb⟩ := sec q hoc
      have hasc : Ascending (S.filter fun h => h.solid) := List.Pairwise.filter _ ha
      have hT : ∀ g, g ∈ S.filter (fun h => h.solid) ↔ g ∈ hs ∧ g.solid = true := by
        intro g; rw [List.mem_filter, hp.mem_iff]
      generalize S.filter (fun h => h.solid) = T at hasc hT
      have hqT : q ∈ T := (hT q).2 ⟨q1, q2⟩
      cases T with
      | nil => cases hqT
      | cons x T =>
        obtain ⟨a1, a2⟩ := List.pairwise_cons.1 hasc
        have hx : x = q := by
          have h1 := (hT x).1 (by simp)
          have h2 := q7 x h1.1 h1.2
          rcases List.mem_cons.1 hqT with h3 | h3
          · exact h3.symm
          · have := a1 q h3; linarith
        subst hx
        refine ⟨by simp, ?_⟩
        cases T with
        | nil =>
          rcases sb with sb | ⟨p, hp1, hp2, hp3, hp4⟩
          · simp [sb]
          · have := (hT p).2 ⟨hp1, hp2⟩
            simp only [List.mem_singleton] at this
            rw [this] at hp4; exact absurd hp4 (lt_irrefl _)
        | cons y T =>
          simp only [List.map_cons, List.getElem?_cons_succ, List.getElem?_cons_zero, Option.getD_some]
          have hy := (hT y).1 (by simp)
          have hxy := a1 y (by simp)
          have h1 : s.occlZ ≤ y.z := by
            rcases sa y hy.1 hy.2 with h1 | h1
            · rw [h1] at hxy; exact absurd hxy (lt_irrefl _)
            · exact h1
          rcases sb with sb | ⟨p, hp1, hp2, hp3, hp4⟩
          · have := (h.fair y hy.1).near; linarith
          · rcases List.mem_cons.1 ((hT p).2 ⟨hp1, hp2⟩) with h2 | h2
            · rw [h2] at hp4; exact absurd hp4 (lt_irrefl _)
            · rcases List.mem_cons.1 h2 with h2 | h2
              · rw [← h2, hp3]
              · have := (List.pairwise_cons.1 a2).1 p h2; linarith
  rw [two.1, two.2]
  by_cases hd : s.data = []
  · rw [combine_nil hd] at hv
    cases hoc : s.occl with
    | none => rw [hoc] at hv; cases hv
    | some q =>
      rw [hoc] at hv
      simp only [Option.map_some, Option.some.injEq] at hv
      subst hv
      simp [hf]
  · rw [combine_data hd] at hv
    cases he : es.head? with
    | none => rw [he] at hv; cases hv
    | some e =>
      rw [he] at hv
      simp only [Option.map_some, Option.some.injEq] at hv
      subst hv
      simp only [hf]
      have hdata : (s.data.map fun e => e.hit).filter o.meets = [] := by
        rw [List.filter_eq_nil_iff]
        intro g hg
        obtain ⟨e', he', rfl⟩ := List.mem_map.1 hg
        have h1 := inv.data e' he'
        rw [hmeets _ h1.1, h1.2.1 hcu]; simp
      have hperm : ((es.map fun e => e.hit).filter o.meets).Perm (s.occl.toList.filter o.meets) := by
        have h1 := (hi.1.map fun e => e.hit).filter o.meets
        rw [Sample.entries, List.map_append, List.filter_append, hdata, List.nil_append, List.map_map] at h1
        have h2 : ((fun e : Entry => e.hit) ∘ fun h => (⟨h, s.mem⟩ : Entry)) = id := rfl
        rwa [h2, List.map_id] at h1
      cases hoc : s.occl with
      | none =>
        have hnil : (es.map fun e => e.hit).filter o.meets = [] := by
          rw [hoc] at hperm; exact List.perm_nil.1 hperm
        obtain ⟨x0, x1⟩ := fold_d1_none (a := ⟨fun _ => 0, fun _ => 0, s.occlZ, o.far, o.far⟩) hnil
        rw [x0, x1]
        simp only [(inv.free hoc).1, Option.map_none, Option.getD_none]
        split_ifs <;> simp
      | some q =>
        have hq := inv.occl q hoc
        have hone : (es.map fun e => e.hit).filter o.meets = [q] := by
          rw [hoc] at hperm
          have : (some q).toList.filter o.meets = [q] := by
            simp [(hmeets q hq.1).2 hq.2.1]
          rw [this] at hperm
          exact List.perm_singleton.1 hperm
        obtain ⟨x0, x1⟩ := fold_d1 (a := ⟨fun _ => 0, fun _ => 0, s.occlZ, o.far, o.far⟩) q hone
        rw [x0, x1]
        have hlen : es.length > 1 := by
          have := hi.1.length_eq
          rw [Sample.entries, hoc] at this
          simp only [List.length_append, List.length_map, Option.length_toList, Option.isSome_some, if_true] at this
          have := List.length_pos_of_ne_nil hd
          omega
        rw [if_pos hlen]
        rfl

/-! ### Where the property fails -/

/-- A grey hit. -/
def grey (col opa z : ℚ) (solid : Bool) (matte : Matte) (extra : Option ℚ) : Hit :=
  ⟨fun _ => col, fun _ => opa, z, solid, matte, z, extra⟩

theorem outcome_two {o : Opts} {a b : Hit} {x y : Entry}
    (he : (sampleAll o (Sample.clear o 0) [b, a]).entries = [y, x]) (hz : x.hit.z ≤ y.hit.z) :
    Outcome o 0 [b, a] (combine o (sampleAll o (Sample.clear o 0) [b, a]) [x, y]) :=
  ⟨[x, y], ⟨by rw [he]; exact List.Perm.swap _ _ _, by simpa using hz⟩, rfl⟩

theorem outcome_one {o : Opts} {hs : List Hit} {x : Entry}
    (he : (sampleAll o (Sample.clear o 0) hs).entries = [x]) :
    Outcome o 0 hs (combine o (sampleAll o (Sample.clear o 0) hs) [x]) :=
  ⟨[x], ⟨by rw [he], List.pairwise_singleton _ _⟩, rfl⟩

private theorem matte_ne : ¬ (Matte.none = Matte.matteAlpha) := by decide
private theorem dmid_ne_max : ¬ (DepthFilter.midPoint = DepthFilter.max) := by decide
private theorem dmid_ne_avg : ¬ (DepthFilter.midPoint = DepthFilter.average) := by decide

private def oMin : Opts := ⟨false, .min, fun _ => 1, 1000⟩
private def mB : Hit := grey (1 / 2) (1 / 2) 10 false .none (some 0)
private def mA : Hit := grey 0 1 5 true .matte (some 0)

/-- **C51 violated.**  A matte object multiplies the opacity behind it by its colour, not by its
opacity: an opaque black matte object in front of a half transparent one leaves its opacity, although
it covers it (imagepixel.cpp:209-213). -/
theorem C51_matte_opacity_violated : ∃ (o : Opts) (hs : List Hit) (r : Option Result), Scene o hs ∧
    Outcome o 0 hs r ∧ Ascending hs.reverse ∧ (r.map fun v => v.opa 0) = some (1 / 2) ∧
      coverOpa hs.reverse 0 = 0 := by
  refine ⟨oMin, [mB, mA], _, ⟨?_, ?_⟩, outcome_two (x := ⟨mA, 0⟩) (y := ⟨mB, 0⟩) ?_ ?_, ?_, ?_, ?_⟩
  · intro h hh
    simp only [List.mem_cons, List.not_mem_nil, or_false] at hh
    rcases hh with rfl | rfl
    · exact ⟨le_refl _, by norm_num [mB, oMin, grey], by norm_num [mB, grey], by simp [mB, grey]⟩
    · exact ⟨le_refl _, by norm_num [mA, oMin, grey], by norm_num [mA, grey], by simp [mA, grey]⟩
  · norm_num [mA, mB, grey]
  · norm_num [matte_ne, dmid_ne_max, dmid_ne_avg, sampleAll, sample, store, Sample.clear, mA, mB, grey, oMin, Opts.cullable, Sample.entries]
  · norm_num [mA, mB, grey]
  · norm_num [Ascending, mA, mB, grey]
  · decide +kernel
  · decide +kernel

private def maA : Hit := grey 1 (1 / 2) 5 false .matteAlpha (some 0)
private def maB : Hit := grey (1 / 2) (1 / 2) 10 false .none (some 0)

/-- **C51 violated.**  With a "matte alpha" object (always opaque for the hider) in front of a
transparent one the result depends on which of them is rendered first. -/
theorem C51_matte_alpha_violated : ∃ (o : Opts) (a b : Hit) (r r' : Option Result), Scene o [b, a] ∧
    a.matte = .matteAlpha ∧ a.z < b.z ∧ Outcome o 0 [b, a] r ∧ Outcome o 0 [a, b] r' ∧
    (r.map fun v => v.col 0) = some (5 / 4) ∧ (r'.map fun v => v.col 0) = some 1 := by
  refine ⟨oMin, maA, maB, _, _, ⟨?_, ?_⟩, rfl, ?_, outcome_two (x := ⟨maA, 0⟩) (y := ⟨maB, 0⟩) ?_ ?_,
    outcome_one (x := ⟨maA, 0⟩) ?_, ?_, ?_⟩
  · intro h hh
    simp only [List.mem_cons, List.not_mem_nil, or_false] at hh
    rcases hh with rfl | rfl
    · exact ⟨le_refl _, by norm_num [maB, oMin, grey], by norm_num [maB, grey], by simp [maB, grey]⟩
    · exact ⟨le_refl _, by norm_num [maA, oMin, grey], by norm_num [maA, grey], by simp [maA, grey]⟩
  · norm_num [maA, maB, grey]
  · norm_num [maA, maB, grey]
  · norm_num [matte_ne, dmid_ne_max, dmid_ne_avg, sampleAll, sample, store, Sample.clear, maA, maB, grey, oMin, Opts.cullable, Sample.entries]
  · norm_num [maA, maB, grey]
  · norm_num [matte_ne, dmid_ne_max, dmid_ne_avg, sampleAll, sample, store, Sample.clear, maA, maB, grey, oMin, Opts.cullable, Sample.entries]
  · decide +kernel
  · decide +kernel

private def oMid : Opts := ⟨true, .midPoint, fun _ => 1 / 2, 1000⟩
private def dA : Hit := grey 1 1 5 true .none (some 0)
private def dB : Hit := grey 1 1 10 true .none (some 0)
private def dC : Hit := grey 1 (3 / 4) 20 false .none (some 0)

/-- **C51 violated.**  Depth filter "midpoint": of three surfaces at depths 5, 10 and 20 that all reach
the threshold, the first two opaque, the result is 25/2 when the third is rendered first: it is taken
for the second nearest. -/
theorem C51_midpoint_violated : ∃ (o : Opts) (hs : List Hit) (r : Option Result), Scene o hs ∧
    (∀ h ∈ hs, ∀ c, o.thr c ≤ h.opa c) ∧ hs.map (fun h => h.z) = [20, 5, 10] ∧ Outcome o 0 hs r ∧
    (r.map fun v => v.z) = some (some (25 / 2)) := by
  refine ⟨oMid, [dC, dA, dB], _, ⟨?_, ?_⟩, ?_, rfl, ⟨[⟨dA, 0⟩, ⟨dC, 0⟩], ⟨?_, ?_⟩, rfl⟩, ?_⟩
  · intro h hh
    simp only [List.mem_cons, List.not_mem_nil, or_false] at hh
    rcases hh with rfl | rfl | rfl
    · exact ⟨le_refl _, by norm_num [dC, oMid, grey], by norm_num [dC, grey], by simp [dC, grey]⟩
    · exact ⟨le_refl _, by norm_num [dA, oMid, grey], by norm_num [dA, grey], by simp [dA, grey]⟩
    · exact ⟨le_refl _, by norm_num [dB, oMid, grey], by norm_num [dB, grey], by simp [dB, grey]⟩
  · norm_num [dA, dB, dC, grey]
  · intro h hh c
    simp only [List.mem_cons, List.not_mem_nil, or_false] at hh
    rcases hh with rfl | rfl | rfl <;> norm_num [dA, dB, dC, grey, oMid]
  · have : (sampleAll oMid (Sample.clear oMid 0) [dC, dA, dB]).entries = [⟨dC, 0⟩, ⟨dA, 0⟩] := by
      norm_num [matte_ne, dmid_ne_max, dmid_ne_avg, sampleAll, sample, store, Sample.clear, dA, dB, dC, grey, oMid, Opts.cullable, Sample.entries]
    rw [this]
    exact List.Perm.swap _ _ _
  · norm_num [dA, dB, dC, grey]
  · decide +kernel

private def xA : Hit := grey 1 1 5 true .none none
private def xB : Hit := grey 1 1 10 true .none (some 7)

/-- **C51 violated.**  A surface whose grid lacks the output variable shows the value of the surface it
hides (bucketprocessor.cpp:1560-1561, 1580). -/
theorem C51_extra_violated : ∃ (o : Opts) (a b : Hit) (r : Option Result), Scene o [b, a] ∧ a.z < b.z ∧
    a.extra = none ∧ Outcome o 0 [b, a] r ∧ (r.map fun v => some v.extra) = some b.extra ∧
    b.extra = some 7 := by
  refine ⟨oMin, xA, xB, _, ⟨?_, ?_⟩, ?_, rfl, outcome_one (x := ⟨xA, 7⟩) ?_, ?_, rfl⟩
  · intro h hh
    simp only [List.mem_cons, List.not_mem_nil, or_false] at hh
    rcases hh with rfl | rfl
    · exact ⟨le_refl _, by norm_num [xB, oMin, grey], by norm_num [xB, grey], by simp [xB, grey]⟩
    · exact ⟨le_refl _, by norm_num [xA, oMin, grey], by norm_num [xA, grey], by simp [xA, grey]⟩
  · norm_num [xA, xB, grey]
  · norm_num [xA, xB, grey]
  · norm_num [matte_ne, dmid_ne_max, dmid_ne_avg, sampleAll, sample, store, Sample.clear, xA, xB, grey, oMin, Opts.cullable, Sample.entries]
  · decide +kernel

private def vA : Hit := grey (1 / 4) (1 / 4) 5 false .none (some 0)

/-- **C51 violated.**  Depth filter "average" divides by zero when no hit reaches the threshold. -/
theorem C51_average_violated : ∃ (o : Opts) (h : Hit) (r : Option Result), Scene o [h] ∧
    o.zMode = true ∧ o.filter = .average ∧ Outcome o 0 [h] r ∧ (r.map fun v => v.z) = some none := by
  refine ⟨⟨true, .average, fun _ => 1 / 2, 1000⟩, vA, _, ⟨?_, by simp⟩, rfl, rfl,
    outcome_one (x := ⟨vA, 0⟩) ?_, ?_⟩
  · intro h hh
    simp only [List.mem_cons, List.not_mem_nil, or_false] at hh
    subst hh
    exact ⟨le_refl _, by norm_num [vA, grey], by norm_num [vA, grey], by simp [vA, grey]⟩
  · norm_num [matte_ne, dmid_ne_max, dmid_ne_avg, sampleAll, sample, store, Sample.clear, vA, grey, Opts.cullable, Sample.entries]
  · decide +kernel

/-! ### Examples -/

/-- Three hits, the opaque one in the middle: stored in two orders, the composition is the same. -/
example : coverCol [vA, dA, dC] 0 = 1 ∧ coverOpa [vA, dA, dC] 0 = 1 := by decide +kernel

private def vB : Hit := grey (1 / 4) (1 / 4) 3 false .none (some 9)

example : (combine oMin (sampleAll oMin (Sample.clear oMin 0) [dC, dA, vB]) [⟨vB, 9⟩, ⟨dA, 0⟩, ⟨dC, 0⟩]).map
    (fun v => (v.col 0, v.opa 0, v.z, v.extra)) = some (1, 1, some 5, 9) := by decide +kernel

example : (combine oMin (sampleAll oMin (Sample.clear oMin 0) [vB, dA, dC]) [⟨vB, 9⟩, ⟨dA, 0⟩]).map
    (fun v => (v.col 0, v.opa 0, v.z, v.extra)) = some (1, 1, some 5, 9) := by decide +kernel

example : Scene oMin [dC, dA, vB] := by
  refine ⟨?_, by norm_num [dC, dA, vB, grey]⟩
  intro h hh
  simp only [List.mem_cons, List.not_mem_nil, or_false] at hh
  rcases hh with rfl | rfl | rfl
  · exact ⟨le_refl _, by norm_num [dC, oMin, grey], by norm_num [dC, grey], by simp [dC, grey]⟩
  · exact ⟨le_refl _, by norm_num [dA, oMin, grey], by norm_num [dA, grey], by simp [dA, grey]⟩
  · exact ⟨le_refl _, by norm_num [vB, oMin, grey], by norm_num [vB, grey], by simp [vB, grey]⟩

end Verif.Core.Samples
