import Verif.Core.Lod
import Verif.Core.CullProps

/-! # C67: levels of detail -/

namespace Verif.Core.Lod

open Verif.Math.Matrix4 Verif.Core.Cull

variable {K : Type} [Field K] [LinearOrder K] [IsStrictOrderedRing K]

/-- A range that `DetailRange` accepts. -/
def Range.Valid (r : Range K) : Prop := r.offlow ≤ r.onlow ∧ r.onhigh ≤ r.offhigh

omit [Field K] [IsStrictOrderedRing K] in
theorem clamp_spec (x mn mx : K) (h : mn ≤ mx) :
    mn ≤ clamp x mn mx ∧ clamp x mn mx ≤ mx ∧ (x ≤ mn → clamp x mn mx = mn) ∧ (mx ≤ x → clamp x mn mx = mx) ∧
    (mn ≤ x → x ≤ mx → clamp x mn mx = x) := by
  unfold clamp
  split_ifs with h1 h2
  · exact ⟨le_refl _, h, fun _ => rfl, fun h3 => absurd (h3.trans_lt h1) (not_lt.2 h), fun h3 => absurd h1 (not_lt.2 h3)⟩
  · exact ⟨h, le_refl _, fun h3 => absurd (h2.trans_le h3) (not_lt.2 h), fun _ => rfl, fun _ h4 => absurd h2 (not_lt.2 h4)⟩
  · exact ⟨not_lt.1 h1, not_lt.1 h2, fun h3 => le_antisymm h3 (not_lt.1 h1), fun h3 => le_antisymm (not_lt.1 h2) h3, fun _ _ => rfl⟩

/-- The falling ramp from 1 at `a` to 0 at `b`; both importances are one. -/
def ramp (a b u : K) : K := if b = a then (if u < b then 1 else 0) else clamp ((b - u) / (b - a)) 0 1

theorem ramp_spec (a b u : K) (h : a ≤ b) : 0 ≤ ramp a b u ∧ ramp a b u ≤ 1 ∧ (u < b → u ≤ a → ramp a b u = 1) ∧ (b ≤ u → ramp a b u = 0) ∧
    (a < b → a ≤ u → u ≤ b → ramp a b u * (b - a) = b - u) := by
  unfold ramp
  by_cases e : b = a
  · rw [if_pos e]
    split_ifs with h1
    · exact ⟨zero_le_one, le_refl _, fun _ _ => rfl, fun h2 => absurd h1 (not_lt.2 h2), fun h2 => absurd h2 (by rw [e]; exact lt_irrefl _)⟩
    · exact ⟨le_refl _, zero_le_one, fun h2 => absurd h2 h1, fun _ => rfl, fun h2 => absurd h2 (by rw [e]; exact lt_irrefl _)⟩
  · rw [if_neg e]
    have hl : 0 < b - a := sub_pos.2 (lt_of_le_of_ne h (fun x => e x.symm))
    obtain ⟨c1, c2, c3, c4, c5⟩ := clamp_spec ((b - u) / (b - a)) 0 1 zero_le_one
    refine ⟨c1, c2, fun _ h2 => c4 ?_, fun h2 => c3 ?_, fun _ h2 h3 => ?_⟩
    · rw [le_div_iff₀ hl]; linarith
    · rw [div_le_iff₀ hl]; linarith
    · rw [c5 (div_nonneg (by linarith) hl.le) (by rw [div_le_iff₀ hl]; linarith), div_mul_cancel₀ _ hl.ne']

omit [IsStrictOrderedRing K] in
theorem min_eq (r : Range K) (u : K) : minImportance r u = ramp r.offlow r.onlow u := rfl

omit [IsStrictOrderedRing K] in
theorem max_eq (r : Range K) (u : K) : maxImportance r u = ramp r.onhigh r.offhigh u := by
  unfold maxImportance ramp
  by_cases e : r.onhigh = r.offhigh
  · rw [if_pos e, if_pos e.symm, e]
  · rw [if_neg e, if_neg (fun x => e x.symm)]

/-- **C67.** Importances are between 0 and 1. A level is not seen below `offlow` and from `offhigh` on, and is fully seen from `onlow` to
before `onhigh` (at `onhigh` too if it ends gradually); in between the importance changes linearly. -/
theorem C67_range (r : Range K) (h : r.Valid) (u : K) :
    (0 ≤ minImportance r u ∧ minImportance r u ≤ 1 ∧ 0 ≤ maxImportance r u ∧ maxImportance r u ≤ 1) ∧
    (u < r.offlow → minImportance r u = 1) ∧ (r.onlow ≤ u → minImportance r u = 0) ∧
    (r.offlow < r.onlow → r.offlow ≤ u → u ≤ r.onlow → minImportance r u * (r.onlow - r.offlow) = r.onlow - u) ∧
    (r.offhigh ≤ u → maxImportance r u = 0) ∧ (u < r.onhigh → maxImportance r u = 1) ∧
    (r.onhigh < r.offhigh → r.onhigh ≤ u → u ≤ r.offhigh → maxImportance r u * (r.offhigh - r.onhigh) = r.offhigh - u) := by
  obtain ⟨a1, a2, a3, a4, a5⟩ := ramp_spec r.offlow r.onlow u h.1
  obtain ⟨b1, b2, b3, b4, b5⟩ := ramp_spec r.onhigh r.offhigh u h.2
  rw [min_eq, max_eq]
  exact ⟨⟨a1, a2, b1, b2⟩, fun hu => a3 (hu.trans_le h.1) hu.le, a4, a5, b4, fun hu => b3 (hu.trans_le h.2) hu.le, b5⟩

example : (minImportance (⟨10, 20, 30, 50⟩ : Range ℚ) 15, maxImportance (⟨10, 20, 30, 50⟩ : Range ℚ) 15,
    maxImportance (⟨10, 20, 30, 50⟩ : Range ℚ) 35) = (1 / 2, 1, 3 / 4) := by decide +kernel

omit [Field K] [IsStrictOrderedRing K] in
/-- **C67.** A range is taken just when it is in order. -/
theorem C67_request (r : Range K) (a : Attr K) :
    (r.Valid → (detailRange r a).range = r ∧ (detailRange r a).bound = a.bound) ∧ (¬ r.Valid → detailRange r a = a) := by
  unfold detailRange
  constructor
  · intro h
    rw [if_neg]
    · exact ⟨rfl, rfl⟩
    · rintro (h1 | h1)
      · exact absurd h.1 (not_le.2 h1)
      · exact absurd h.2 (not_le.2 h1)
  · intro h
    rw [if_pos]
    by_contra hc
    push Not at hc
    exact h hc

example : ((detailRange ⟨0, 1, 2, 3⟩ (initial : Attr ℚ)).range.onhigh, (detailRange ⟨1, 0, 2, 3⟩ (initial : Attr ℚ)).range.onhigh) = (2, 0) := by
  decide +kernel

/-- Each level goes over to the next one. -/
def Chain : List (Range K) → Prop
  | [] => True
  | [_] => True
  | r :: r' :: rs => r.onhigh = r'.offlow ∧ r.offhigh = r'.onlow ∧ Chain (r' :: rs)

/-- How many levels a sample is taken from. -/
def count (rs : List (Range K)) (u lod : K) : Nat :=
  (rs.filter fun r => taken (minImportance r u, maxImportance r u) lod).length

theorem taken_spec (r : Range K) (h : r.Valid) (u lod : K) :
    taken (minImportance r u, maxImportance r u) lod = true ↔ minImportance r u ≤ lod ∧ lod < maxImportance r u := by
  have h0 := (C67_range r h u).1.1
  unfold taken
  rw [if_pos h0]
  simp

theorem count_chain : ∀ (rs : List (Range K)) (u lod : K), (∀ r ∈ rs, r.Valid ∧ r.onlow ≤ r.onhigh) → Chain rs → ∀ r₀ ∈ rs.head?, ∀ r₁ ∈ rs.getLast?,
    u < r₁.onhigh → 0 ≤ lod → lod < 1 → count rs u lod = if minImportance r₀ u ≤ lod then 1 else 0 := by
  intro rs
  induction rs with
  | nil => intro u lod _ _ r₀ h; exact absurd h (by simp)
  | cons r rs ih =>
    intro u lod hv hc r₀ h0 r₁ h1 hu l0 l1
    have e0 : r = r₀ := by simpa using h0
    subst e0
    have hr := (hv r (by simp)).1
    unfold count
    rw [List.filter_cons]
    cases rs with
    | nil =>
      have e1 : r = r₁ := by simpa using h1
      subst e1
      have hm := (C67_range r hr u).2.2.2.2.2.1 hu
      by_cases ht : minImportance r u ≤ lod
      · rw [if_pos ht, if_pos ((taken_spec r hr u lod).2 ⟨ht, by rw [hm]; exact l1⟩)]
        rfl
      · rw [if_neg ht, if_neg (fun h => ht ((taken_spec r hr u lod).1 h).1)]
        rfl
    | cons r' rs =>
      obtain ⟨c1, c2, c4⟩ := hc
      have hmm : maxImportance r u = minImportance r' u := by rw [max_eq, min_eq, c1, c2]
      have h1' : r₁ ∈ (r' :: rs).getLast? := by rwa [List.getLast?_cons_cons] at h1
      have hrec := ih u lod (fun x hx => hv x (by simp [hx])) c4 r' (by simp) r₁ h1' hu l0 l1
      unfold count at hrec
      by_cases ht : minImportance r u ≤ lod
      · rw [if_pos ht]
        by_cases ht2 : lod < maxImportance r u
        · rw [if_pos ((taken_spec r hr u lod).2 ⟨ht, ht2⟩), List.length_cons, hrec, if_neg (by rw [← hmm]; exact not_le.2 ht2)]
        · rw [if_neg (fun h => ht2 ((taken_spec r hr u lod).1 h).2), hrec, if_pos (by rw [← hmm]; exact not_lt.1 ht2)]
      · rw [if_neg ht, if_neg (fun h => ht ((taken_spec r hr u lod).1 h).1), hrec]
        rw [if_neg]
        rw [← hmm]
        have hlt : u < r.onlow := by
          by_contra hcc
          exact ht (((C67_range r hr u).2.2.1 (not_lt.1 hcc)) ▸ l0)
        rw [(C67_range r hr u).2.2.2.2.2.1 (hlt.trans_le (hv r (by simp)).2)]
        exact not_le.2 l1

/-- **C67.** If each level goes over to the next one, the first one is complete and the last one does not end, then each sample is
taken from just one level. -/
theorem C67_levels (rs : List (Range K)) (u lod : K) (hv : ∀ r ∈ rs, r.Valid ∧ r.onlow ≤ r.onhigh) (hc : Chain rs)
    (h0 : ∀ r ∈ rs.head?, r.onlow ≤ u) (h1 : ∀ r ∈ rs.getLast?, u < r.onhigh) (hne : rs ≠ []) (l0 : 0 ≤ lod) (l1 : lod < 1) :
    (rs.filter fun r => taken (minImportance r u, maxImportance r u) lod).length = 1 := by
  obtain ⟨r₀, e0⟩ : ∃ r, rs.head? = some r := by cases rs with | nil => exact absurd rfl hne | cons r rs => exact ⟨r, rfl⟩
  obtain ⟨r₁, e1⟩ : ∃ r, rs.getLast? = some r := ⟨_, List.getLast?_eq_some_getLast hne⟩
  have := count_chain rs u lod hv hc r₀ e0 r₁ e1 (h1 r₁ e1) l0 l1
  unfold count at this
  have hm : r₀ ∈ rs := List.mem_of_mem_head? e0
  rw [this, (C67_range r₀ (hv r₀ hm).1 u).2.2.1 (h0 r₀ e0), if_pos l0]

/-- Not vacuous: three levels, the size is in the transition from the first one to the second one. -/
example : Chain [(⟨0, 0, 10, 20⟩ : Range ℚ), ⟨10, 20, 40, 40⟩, ⟨40, 40, 1000, 1000⟩] ∧
    ([(⟨0, 0, 10, 20⟩ : Range ℚ), ⟨10, 20, 40, 40⟩, ⟨40, 40, 1000, 1000⟩].map fun r => (minImportance r 12, maxImportance r 12)) =
      [(0, 4 / 5), (4 / 5, 1), (1, 1)] := by
  refine ⟨⟨rfl, rfl, rfl, rfl, trivial⟩, by decide +kernel⟩

/-- **C67.** A surface is culled just when no sample of it could be taken; else it gets the importances of its range, and keeps the other
attributes. A bound of size zero turns the levels off. -/
theorem C67_post (big : K) (m : Mat K) (rel : K) (a : Attr K) (ha : a.range.Valid) :
    ((∀ i, (boundOf a.bound).hi i = (boundOf a.bound).lo i) → post big m rel a = some (some a)) ∧
    ((∃ i, (boundOf a.bound).hi i ≠ (boundOf a.bound).lo i) → ∀ b, transform big m (boundOf a.bound) = some b →
      ∃ r, post big m rel a = some r ∧
        (r = none ↔ ∀ lod, 0 ≤ lod → lod < 1 → taken (minImportance a.range (ruler rel b), maxImportance a.range (ruler rel b)) lod = false) ∧
        ∀ a', r = some a' → a'.bound = a.bound ∧ a'.range = a.range ∧
          a'.imp = (minImportance a.range (ruler rel b), maxImportance a.range (ruler rel b))) := by
  have hd : ∀ d : Fin 3 → K, dot d d > 0 ↔ ∃ i, d i ≠ 0 := by
    intro d
    unfold dot
    constructor
    · intro h
      by_contra hc
      push Not at hc
      rw [hc 0, hc 1, hc 2] at h
      simp at h
    · rintro ⟨i, hi⟩
      have := mul_self_pos.2 hi
      fin_cases i
      · show 0 < d 0 * d 0 + d 1 * d 1 + d 2 * d 2
        have h0 : 0 < d 0 * d 0 := this
        linarith [mul_self_nonneg (d 1), mul_self_nonneg (d 2)]
      · show 0 < d 0 * d 0 + d 1 * d 1 + d 2 * d 2
        have h0 : 0 < d 1 * d 1 := this
        linarith [mul_self_nonneg (d 0), mul_self_nonneg (d 2)]
      · show 0 < d 0 * d 0 + d 1 * d 1 + d 2 * d 2
        have h0 : 0 < d 2 * d 2 := this
        linarith [mul_self_nonneg (d 1), mul_self_nonneg (d 0)]
  constructor
  · intro h
    unfold post
    exact if_neg (fun hc => by obtain ⟨i, hi⟩ := (hd _).1 hc; exact hi (sub_eq_zero.2 (h i)))
  · rintro ⟨i, hi⟩ b hb
    have hpos := (hd fun i => (boundOf a.bound).hi i - (boundOf a.bound).lo i).2 ⟨i, sub_ne_zero.2 hi⟩
    unfold post
    dsimp only
    rw [if_pos hpos, hb]
    refine ⟨_, rfl, ?_, ?_⟩
    · dsimp only
      obtain ⟨⟨m0, m1, m2, m3⟩, -⟩ := C67_range a.range ha (ruler rel b)
      by_cases hc : minImportance a.range (ruler rel b) ≥ maxImportance a.range (ruler rel b)
      · rw [if_pos hc]
        refine ⟨fun _ lod _ _ => ?_, fun _ => rfl⟩
        by_contra ht
        rw [Bool.not_eq_false] at ht
        have := (taken_spec a.range ha _ lod).1 ht
        exact absurd (this.1.trans_lt this.2) (not_lt.2 hc)
      · rw [if_neg hc]
        refine ⟨fun h => absurd h (by simp), fun h => ?_⟩
        push Not at hc
        have := (taken_spec a.range ha (ruler rel b) (minImportance a.range (ruler rel b))).2 ⟨le_refl _, hc⟩
        rw [h _ m0 (hc.trans_le m3)] at this
        exact absurd this (by simp)
    · intro a' h
      dsimp only at h
      split_ifs at h
      have := Option.some.inj h
      subst this
      exact ⟨rfl, rfl, rfl⟩

/-- **C67.** The size on the screen is the area of the bound there, times the factor. -/
theorem C67_ruler (rel : K) (b : Box K) (h0 : b.lo 0 ≤ b.hi 0) (h1 : b.lo 1 ≤ b.hi 1) :
    ruler rel b = (b.hi 0 - b.lo 0) * (b.hi 1 - b.lo 1) * rel := by
  unfold ruler
  rw [abs_of_nonneg (mul_nonneg (by linarith) (by linarith))]

/-- A bound that is 4 times 5 on the screen. -/
def exampleBound : Fin 6 → ℚ := ![0, 4, 0, 5, 1, 1]

example : (post 1000 identity 1 (detailRange ⟨10, 30, 40, 50⟩ (detail exampleBound initial))).map (fun r => r.map fun a => a.imp) =
    some (some (1 / 2, 1)) := by decide +kernel

/-- After `Detail` without `DetailRange` everything is culled: the initial range is empty (in the interface it has no end). -/
theorem C67_initial_violated :
    (post 1000 identity 1 (detail exampleBound (initial : Attr ℚ))).map (fun r => r.isNone) = some true := by decide +kernel

/-- The importances of one surface stay in the attributes: if the levels are turned off by a bound of size zero, the next surface still
has them, and half of its samples are missing. -/
theorem C67_off_violated :
    ((post 1000 identity 1 (detailRange ⟨10, 30, 40, 50⟩ (detail exampleBound (initial : Attr ℚ)))).bind fun r =>
      r.bind fun a => post 1000 identity 1 (detail (fun _ => 0) a)).map (fun r => r.map fun a => a.imp) = some (some (1 / 2, 1)) := by
  decide +kernel

/-- Two surfaces with the same attributes and different transformations (sizes 20 and 35): the first one is shaded with the importances
of the second one. -/
theorem C67_shared_violated :
    (postAll 1000 1 [(⟨identity, 0⟩ : Surf ℚ), ⟨scaleMat 1 (7 / 4) 1, 0⟩] (fun _ => detailRange ⟨10, 30, 40, 50⟩ (detail exampleBound initial))).map
      (fun p => (p.2.length, (p.1 0).imp)) = some (2, (0, 1)) ∧
    (postAll 1000 1 [(⟨identity, 0⟩ : Surf ℚ)] (fun _ => detailRange ⟨10, 30, 40, 50⟩ (detail exampleBound initial))).map
      (fun p => (p.2.length, (p.1 0).imp)) = some (1, (1 / 2, 1)) := by decide +kernel

omit [IsStrictOrderedRing K] in
/-- **C67.** Surfaces with attributes of their own are posted independently. -/
theorem C67_own_partial (big rel : K) (ss : List (Surf K)) (h h' : Nat → Attr K) (ss' : List (Surf K))
    (hn : (ss.map (·.attr)).Nodup) (hp : postAll big rel ss h = some (h', ss')) :
    (∀ i, i ∉ ss.map (·.attr) → h' i = h i) ∧
    ∀ s ∈ ss, ∃ r, post big s.toRaster rel (h s.attr) = some r ∧ (s ∈ ss' ↔ r.isSome = true) ∧ ∀ a, r = some a → h' s.attr = a := by
  induction ss generalizing h h' ss' with
  | nil =>
    have e := Option.some.inj hp
    have e1 : h = h' := congrArg Prod.fst e
    exact ⟨fun i _ => by rw [e1], fun s hs => absurd hs (by simp)⟩
  | cons s ss ih =>
    rw [List.map_cons, List.nodup_cons] at hn
    have sub : ∀ (g g' : Nat → Attr K) (t : List (Surf K)), postAll big rel ss g = some (g', t) → s ∉ t := by
      intro g g' t ht hs
      have mem : ∀ (l : List (Surf K)) (g g' : Nat → Attr K) (t : List (Surf K)), postAll big rel l g = some (g', t) → ∀ x ∈ t, x ∈ l := by
        intro l
        induction l with
        | nil =>
          intro g g' t ht x hx
          have := congrArg Prod.snd (Option.some.inj ht)
          subst this
          exact hx
        | cons y l ihl =>
          intro g g' t ht x hx
          unfold postAll at ht
          obtain ⟨r, -, hr⟩ := Option.bind_eq_some_iff.1 ht
          cases r with
          | none => exact List.mem_cons_of_mem _ (ihl _ _ _ hr x hx)
          | some a =>
            obtain ⟨p, hp, hpe⟩ := Option.map_eq_some_iff.1 hr
            have e2 : y :: p.2 = t := congrArg Prod.snd hpe
            subst e2
            rcases List.mem_cons.1 hx with rfl | hx
            · simp
            · exact List.mem_cons_of_mem _ (ihl _ _ _ hp x hx)
      exact hn.1 (List.mem_map.2 ⟨s, mem ss g g' t ht s hs, rfl⟩)
    unfold postAll at hp
    obtain ⟨r, er, hr⟩ := Option.bind_eq_some_iff.1 hp
    cases r with
    | none =>
      obtain ⟨i1, i2⟩ := ih h h' ss' hn.2 hr
      refine ⟨fun i hi => i1 i (fun hm => hi (by rw [List.map_cons]; exact List.mem_cons_of_mem _ hm)), fun x hx => ?_⟩
      rcases List.mem_cons.1 hx with rfl | hx
      · exact ⟨none, er, ⟨fun hm => absurd hm (sub _ _ _ hr), fun hm => absurd hm (by simp)⟩, fun a ha => absurd ha (by simp)⟩
      · exact i2 x hx
    | some a =>
      obtain ⟨p, hp', hpe⟩ := Option.map_eq_some_iff.1 hr
      have e1 : p.1 = h' := congrArg Prod.fst hpe
      have e2 : s :: p.2 = ss' := congrArg Prod.snd hpe
      obtain ⟨i1, i2⟩ := ih (fun i => if i = s.attr then a else h i) p.1 p.2 hn.2 hp'
      subst e1
      subst e2
      refine ⟨fun i hi => ?_, fun x hx => ?_⟩
      · rw [List.map_cons, List.mem_cons] at hi
        push Not at hi
        rw [i1 i hi.2, if_neg hi.1]
      · by_cases hxs : x ∈ ss
        · have hne : x.attr ≠ s.attr := fun e => hn.1 (e ▸ List.mem_map.2 ⟨x, hxs, rfl⟩)
          obtain ⟨r, r1, r2, r3⟩ := i2 x hxs
          rw [if_neg hne] at r1
          refine ⟨r, r1, ?_, r3⟩
          rw [List.mem_cons, ← r2]
          constructor
          · rintro (e | e)
            · exact absurd (congrArg Surf.attr e) hne
            · exact e
          · exact Or.inr
        · have e : x = s := (List.mem_cons.1 hx).resolve_right hxs
          subst e
          refine ⟨some a, er, ⟨fun _ => rfl, fun _ => by simp⟩, fun a' ha' => ?_⟩
          rw [i1 x.attr hn.1, if_pos rfl]
          exact Option.some.inj ha'

/-- Points are not made if the bound of the detail is on the left of the origin, whatever its range. -/
theorem C67_points_violated :
    pointsMade (detailRange ⟨0, 0, 1000, 1000⟩ (detail (![-2, -1, 0, 1, 1, 1] : Fin 6 → ℚ) initial)) = false ∧
    (post 1000 identity 1 (detailRange ⟨0, 0, 1000, 1000⟩ (detail (![-2, -1, 0, 1, 1, 1] : Fin 6 → ℚ) initial))).map
      (fun r => r.map fun a => a.imp) = some (some (0, 1)) := by decide +kernel

end Verif.Core.Lod
