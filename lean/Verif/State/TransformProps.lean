import Verif.State.TransformLemmas
import Mathlib.Algebra.Group.Int.Units
import Mathlib.Algebra.Group.TypeTags.Basic

/-!
# C59: transformations and motion blocks
-/

namespace Verif.State.Transform

variable {G : Type} [Group G]

/-! ## Before the world -/

theorem pre_run (neg : G → Bool) (pre : List (Change G)) : ∀ (s : St G) (m : G), s.outer = [] → s.cur.motion = none →
    s.cur.closable = false → s.cur.trans.keys = [] → s.cur.trans.moving = false → s.cur.trans.static = m → s.world = false →
    s.camera = .new →
    ∃ s', run neg s (pre.map Change.toReq) = some s' ∧ s'.outer = [] ∧ s'.cur.motion = none ∧ s'.cur.closable = false ∧
      s'.cur.trans.keys = [] ∧ s'.cur.trans.moving = false ∧
      s'.cur.trans.static = pre.foldl (fun a c => c.apply a) m ∧ s'.world = false ∧ s'.shutter = s.shutter := by
  induction pre with
  | nil => intro s m h1 h2 h3 h4 h5 h6 h7 _; exact ⟨s, rfl, h1, h2, h3, h4, h5, h6, h7, rfl⟩
  | cons c pre ih =>
    intro s m h1 h2 h3 h4 h5 h6 h7 h8
    have hin := inMotion_none h2
    have hcam : Cam neg (neg 1) s := by
      intro t
      rw [h8]
      exact ⟨_, rfl, rfl⟩
    have : ∃ f : Trans G → Trans G, step neg s c.toReq = some (s.modTrans f) ∧ (f s.cur.trans).keys = [] ∧
        (f s.cur.trans).moving = false ∧ (f s.cur.trans).static = c.apply m := by
      have hset : ∀ m', setTransform neg false (neg 1) s.time m' s.cur.trans
          = { s.cur.trans with static := m', hand := if neg m' then !(neg 1) else neg 1 } := by
        intro m'
        unfold setTransform
        rw [if_neg (by simp), if_neg (by simp [h5])]
      cases c with
      | identity =>
        refine ⟨setTransform neg false (neg 1) s.time 1, ?_, ?_⟩
        · show (do (← s.setTime neg 1).advance) = _
          rw [setTime_eq hcam, hin]
          exact advance_none (by exact h2)
        · rw [hset]; exact ⟨h4, h5, rfl⟩
      | transform m' =>
        refine ⟨setTransform neg false (neg 1) s.time m', ?_, ?_⟩
        · show (do if s.world then ((← s.setTime neg 1).concatTime neg m').advance else (← s.setTime neg m').advance) = _
          rw [if_neg (by simp [h7]), setTime_eq hcam, hin]
          exact advance_none (by exact h2)
        · rw [hset]; exact ⟨h4, h5, rfl⟩
      | concat m' =>
        refine ⟨concatCurrent neg false s.time m', ?_, ?_⟩
        · show (s.concatTime neg m').advance = _
          unfold St.concatTime
          rw [hin]
          exact advance_none (by exact h2)
        · unfold concatCurrent
          rw [if_neg (by simp), if_neg (by simp [h5])]
          refine ⟨h4, h5, ?_⟩
          show s.cur.trans.static * m' = m * m'
          rw [h6]
    obtain ⟨f, q1, q2, q3, q4⟩ := this
    obtain ⟨s', r⟩ := ih (s.modTrans f) (c.apply m) h1 h2 h3 q2 q3 q4 h7 h8
    refine ⟨s', ?_, r.2⟩
    rw [List.map_cons, run, q1]
    exact r.1

/-- What is seen of a transformation at the given times. -/
def Sees (neg : G → Bool) (ch : Bool) (ts : List ℚ) (tr : Trans G) (ms : List G) : Prop :=
  ts.map tr.at = ms.map fun m => some ⟨m, xor ch (neg m)⟩

theorem span_mk {neg : G → Bool} {ch : Bool} (ts : List ℚ) : ∀ (ms : List G) (t0 : ℚ) (o0 : Obj G), ms.length = ts.length →
    (t0 :: ts).Pairwise (· < ·) → ∀ i (hi : i < ts.length) (hm : i < ms.length),
    span ts[i] (t0, o0) (mkKeys neg ch ts ms) = mkO neg ch ms[i] := by
  induction ts with
  | nil => intro ms t0 o0 _ _ i hi; simp at hi
  | cons t ts ih =>
    intro ms t0 o0 hl hp i hi hm
    match ms, hl with
    | m :: ms, hl =>
      have hl' : ms.length = ts.length := by simpa using hl
      have hp' := (List.pairwise_cons.1 hp).2
      show span _ (t0, o0) ((t, mkO neg ch m) :: mkKeys neg ch ts ms) = _
      unfold span
      cases i with
      | zero =>
        rw [List.getElem_cons_zero, if_pos (le_refl _)]
        match ts, ms, hl' with
        | [], [], _ => rfl
        | t' :: ts, m' :: ms, _ =>
          show span t (t, mkO neg ch m) ((t', mkO neg ch m') :: mkKeys neg ch ts ms) = _
          unfold span
          have : t < t' := (List.pairwise_cons.1 hp').1 t' (by simp)
          rw [if_neg (by show ¬ t ≥ t'; exact not_le.2 this)]
          rfl
      | succ i =>
        have hi' : i < ts.length := by simpa using hi
        have : t < ts[i] := (List.pairwise_cons.1 hp').1 _ (List.getElem_mem hi')
        simp only [List.getElem_cons_succ]
        rw [if_pos (le_of_lt this)]
        exact ih ms t _ hl' hp' i hi' (by simpa using hm)

theorem mkKeys_getLast {neg : G → Bool} {ch : Bool} (ts : List ℚ) : ∀ (ms : List G), ms.length = ts.length → ∀ h : ts ≠ [],
    ∀ h' : ms ≠ [], (mkKeys neg ch ts ms).getLast? = some (ts.getLast h, mkO neg ch (ms.getLast h')) := by
  induction ts with
  | nil => intro _ _ h; exact absurd rfl h
  | cons t ts ih =>
    intro ms hl _ _
    match ms, hl with
    | m :: ms, hl =>
      match ts, ms, hl with
      | [], [], _ => rfl
      | t' :: ts, m' :: ms, hl =>
        have := ih (m' :: ms) (by simpa using hl) (by simp) (by simp)
        show ((t, mkO neg ch m) :: mkKeys neg ch (t' :: ts) (m' :: ms)).getLast? = _
        rw [List.getLast?_cons, this]
        rfl

theorem rel_sees {neg : G → Bool} {ch : Bool} {ts : List ℚ} (hp : ts.Pairwise (· < ·)) {tr : Trans G} {sp : Mats G}
    (h : Rel neg ch ts tr sp) : Sees neg ch ts tr sp.mats := by
  obtain ⟨hl, h⟩ := h
  apply List.ext_getElem (by simp [hl])
  intro i hi hi'
  have hit : i < ts.length := by simpa using hi
  have him : i < sp.mats.length := by simpa using hi'
  rw [List.getElem_map, List.getElem_map]
  show tr.at (ts[i]'hit) = some (mkO neg ch (sp.mats[i]'him))
  clear hi hi'
  cases hm : sp.moving with
  | false =>
    rw [hm, if_neg (by simp)] at h
    unfold Trans.at
    rw [if_neg (by simp [h.1])]
    unfold mkO
    rw [h.2.2.1 _ (List.getElem_mem him), h.2.2.2]
  | true =>
    rw [hm, if_pos rfl] at h
    unfold Trans.at interpolated
    rw [if_pos h.1, h.2]
    have hne : ts ≠ [] := by intro e; rw [e] at hit; simp at hit
    have hmne : sp.mats ≠ [] := by intro e; rw [e] at him; simp at him
    rw [mkKeys_getLast ts sp.mats hl hne hmne]
    generalize sp.mats = ms at *
    match ts, ms, hl with
    | t :: ts, m :: ms, hl =>
      show (if (t :: ts)[i] ≥ (t :: ts).getLast hne then some (mkO neg ch ((m :: ms).getLast hmne)) else
        if (t :: ts)[i] ≤ t then some (mkO neg ch m) else some (span (t :: ts)[i] (t, mkO neg ch m) (mkKeys neg ch ts ms))) = _
      have hl' : ms.length = ts.length := by simpa using hl
      by_cases hlast : i = ts.length
      · have e1 : (t :: ts)[i] = (t :: ts).getLast hne := by
          rw [List.getLast_eq_getElem]; simp [hlast]
        have e2 : (m :: ms)[i] = (m :: ms).getLast hmne := by
          rw [List.getLast_eq_getElem]; simp [hlast, hl']
        rw [if_pos (by rw [e1]), e2]
      · have hlt : i < ts.length := by
          have : i < ts.length + 1 := by simpa using hit
          omega
        have : (t :: ts)[i] < (t :: ts).getLast hne := by
          rw [List.getLast_eq_getElem]
          exact List.pairwise_iff_getElem.1 hp i _ hit (by simp) (by simpa using hlt)
        rw [if_neg (not_le.2 this)]
        cases i with
        | zero => rw [List.getElem_cons_zero, if_pos (le_refl _)]; rfl
        | succ i =>
          have hi2 : i < ts.length := by omega
          have : t < ts[i] := (List.pairwise_cons.1 hp).1 _ (List.getElem_mem hi2)
          simp only [List.getElem_cons_succ]
          rw [if_neg (not_le.2 this), span_mk ts ms t _ hl' hp i hi2 (by omega)]

/-- With a camera that does not move, after any requests of the world, at each of the times the current transformation and
those of the blocks around it are the products the requests ask for, with the handedness of their determinants. Motion blocks
may be used again and again, with the same times; their changes are made each to the matrix of its time.

Missing: a moving camera, other times in a later motion block, setting (instead of concatenating) a moving transformation outside
of motion blocks, coordinate system requests (see the `_violated` theorems). -/
theorem C59_motion_partial (neg : G → Bool) (hn : ∀ a b, neg (a * b) = xor (neg a) (neg b)) (shutter : ℚ) (pre : List (Change G))
    (ts : List ℚ) (ht : ts ≠ []) (hp : ts.Pairwise (· < ·)) (as : List (Act G))
    (hok : Spec.Ok ts.length ⟨⟨false, ts.map fun _ => 1⟩, []⟩ as) :
    let cam := pre.foldl (fun a c => c.apply a) 1
    let sp := Spec.run ⟨⟨false, ts.map fun _ => 1⟩, []⟩ as
    ∃ s bs base, run neg (initial shutter) (pre.map Change.toReq ++ .worldBegin :: as.flatMap (Act.reqs ts)) = some s ∧
      (∀ t, s.camera.at t = some ⟨cam, s.camera.hand⟩) ∧
      s.outer = bs ++ [base] ∧
      Sees neg (neg cam) ts s.cur.trans sp.cur.mats ∧
      List.Forall₂ (fun b m => Sees neg (neg cam) ts b.trans m.mats) bs sp.outer := by
  intro cam sp
  have hn' : Sign neg := ⟨hn⟩
  obtain ⟨s1, h1, h2, h3, h4, h5, h6, h7, h8, h9⟩ := pre_run neg pre (initial shutter) 1 rfl rfl rfl rfl rfl rfl rfl rfl
  have hcat : ∀ t, s1.cur.trans.at t = some ⟨cam, s1.cur.trans.hand⟩ := by
    intro t
    unfold Trans.at
    rw [if_neg (by simp [h6]), h7]
  let s2 : St G := { s1 with
    camera := s1.cur.trans, outer := [s1.cur],
    cur := ⟨none, false, { s1.cur.trans with moving := false, dflt := ⟨cam, s1.cur.trans.hand⟩ }⟩ }
  have hcam2 : Cam neg (neg cam) s2 := fun t => ⟨_, hcat t, rfl⟩
  have hset := setTime_eq hcam2 1
  let s3 : St G := { s2.modTrans (setTransform neg s2.inMotion (neg cam) s2.time 1) with world := true }
  have hw : step neg s1 .worldBegin = some s3 := by
    show ((s1.cur.trans.at s1.time).bind fun o => _) = _
    rw [hcat, Option.bind_some]
    have hif : (s1.inMotion || s1.world) = false := by rw [inMotion_none h3, h8]; rfl
    simp only [hif, h2]
    exact congrArg (fun x => Option.bind x fun s2 => some { s2 with world := true }) hset
  have hrel : RelS neg (neg cam) ts [s1.cur] s3 ⟨⟨false, ts.map fun _ => 1⟩, []⟩ := by
    refine ⟨fun t => ⟨_, hcat t, rfl⟩, rfl, rfl, ?_, [], rfl, .nil, rfl⟩
    show Rel neg (neg cam) ts (setTransform neg false (neg cam) s2.time 1 s2.cur.trans) _
    have : setTransform neg false (neg cam) s2.time 1 s2.cur.trans
        = { s2.cur.trans with static := 1, hand := if neg 1 then !(neg cam) else neg cam } := rfl
    rw [this]
    refine ⟨by simp, ?_⟩
    rw [if_neg (by simp)]
    refine ⟨rfl, h5, ?_, ?_⟩
    · intro m hm
      obtain ⟨_, _, rfl⟩ := List.mem_map.1 hm
      rfl
    · show (if neg 1 then !(neg cam) else neg cam) = xor (neg cam) (neg 1)
      rw [hn'.one]; simp
  obtain ⟨s4, r1, r2⟩ := acts hn' ht hp as hrel hok
  obtain ⟨bs, q1, q2, q3⟩ := r2.outer
  refine ⟨s4, bs, s1.cur, ?_, ?_, q1, rel_sees hp r2.cur, ?_⟩
  · rw [run_append, h1, Option.bind_some, run, hw, Option.bind_some, r1]
  · have := run_camera neg (as.flatMap (Act.reqs ts)) (acts_noWorld ts as) s3 s4 r1
    intro t
    rw [this]
    exact hcat t
  · exact q2.imp fun b m hb => rel_sees hp hb.2

/-- Two motion blocks with the times 0, 1 (the second one in a transform block), and changes between them. -/
example : Spec.Ok 2 ⟨⟨false, [1, 1]⟩, []⟩ [.change (.transform (Multiplicative.ofAdd (3 : ℤ))), .motion [.concat (.ofAdd 1), .identity], .push,
    .motion [.concat (.ofAdd 2), .concat (.ofAdd 5)], .change (.concat (.ofAdd 10)), .pop] ∧
    (Spec.run ⟨⟨false, [1, 1]⟩, []⟩ [.change (.transform (Multiplicative.ofAdd (3 : ℤ))), .motion [.concat (.ofAdd 1), .identity], .push,
    .motion [.concat (.ofAdd 2), .concat (.ofAdd 5)], .change (.concat (.ofAdd 10))]).cur.mats = [.ofAdd 16, .ofAdd 15] := by
  refine ⟨⟨rfl, rfl, trivial, rfl, trivial, trivial, trivial⟩, by decide +kernel⟩

/-! ## Key times -/

theorem insertSlot_mem (t : ℚ) (o : Obj G) (ks : List (ℚ × Obj G)) (k : ℚ × Obj G) (h : k ∈ insertSlot t o ks) :
    k = (t, o) ∨ k ∈ ks := by
  induction ks with
  | nil => simpa [insertSlot] using h
  | cons a ks ih =>
    unfold insertSlot at h
    split_ifs at h
    · rcases List.mem_cons.1 h with rfl | h
      · simp
      · rcases ih h with h | h
        · exact Or.inl h
        · simp [h]
    · simpa using h

theorem insertSlot_sorted (t : ℚ) (o : Obj G) (ks : List (ℚ × Obj G)) (hs : (ks.map (·.1)).Pairwise (· < ·))
    (hn : ∀ k ∈ ks, k.1 ≠ t) : ((insertSlot t o ks).map (·.1)).Pairwise (· < ·) := by
  induction ks with
  | nil => simp [insertSlot]
  | cons a ks ih =>
    rw [List.map_cons, List.pairwise_cons] at hs
    unfold insertSlot
    split_ifs with h
    · rw [List.map_cons, List.pairwise_cons]
      refine ⟨?_, ih hs.2 (fun k hk => hn k (by simp [hk]))⟩
      intro x hx
      obtain ⟨k, hk, rfl⟩ := List.mem_map.1 hx
      rcases insertSlot_mem _ _ _ _ hk with rfl | hk
      · exact h
      · exact hs.1 _ (List.mem_map.2 ⟨k, hk, rfl⟩)
    · have hlt : t < a.1 := lt_of_le_of_ne (not_lt.1 h) (Ne.symm (hn a (by simp)))
      rw [List.map_cons, List.pairwise_cons]
      refine ⟨?_, by rw [List.map_cons, List.pairwise_cons]; exact hs⟩
      intro x hx
      rcases List.mem_cons.1 (by simpa using hx : x ∈ a.1 :: ks.map (·.1)) with rfl | hx
      · exact hlt
      · exact lt_trans hlt (hs.1 x hx)

theorem modSlot_times (t : ℚ) (f : Obj G → Obj G) (ks : List (ℚ × Obj G)) : (modSlot t f ks).map (·.1) = ks.map (·.1) := by
  induction ks with
  | nil => rfl
  | cons a ks ih => unfold modSlot; split_ifs <;> simp [ih]

theorem addSlot_sorted (t : ℚ) (o : Obj G) (ks : List (ℚ × Obj G)) (hs : (ks.map (·.1)).Pairwise (· < ·)) :
    ((addSlot ks t o).map (·.1)).Pairwise (· < ·) := by
  unfold addSlot
  split_ifs with h
  · rw [modSlot_times]; exact hs
  · apply insertSlot_sorted _ _ _ hs
    intro k hk e
    apply h
    unfold slotExists
    rw [List.any_eq_true]
    exact ⟨k, hk, by simpa using e⟩

theorem concatSlot_sorted (neg : G → Bool) (d : Obj G) (t : ℚ) (m : G) (ks : List (ℚ × Obj G))
    (hs : (ks.map (·.1)).Pairwise (· < ·)) : ((concatSlot neg ks d t m).map (·.1)).Pairwise (· < ·) := by
  unfold concatSlot
  split_ifs with h
  · rw [modSlot_times]; exact hs
  · rw [modSlot_times]; exact addSlot_sorted _ _ _ hs

/-- The keys of all transformations are in order, with different times. -/
def Sorted (s : St G) : Prop := ∀ tr ∈ s.camera :: s.cur.trans :: s.outer.map (·.trans), (tr.keys.map (·.1)).Pairwise (· < ·)

theorem sorted_mod {s : St G} (f : Trans G → Trans G) (hf : ∀ tr, (tr.keys.map (·.1)).Pairwise (· < ·) →
    ((f tr).keys.map (·.1)).Pairwise (· < ·)) (h : Sorted s) : Sorted (s.modTrans f) := by
  intro tr htr
  rcases List.mem_cons.1 htr with rfl | htr
  · exact h _ (by exact List.mem_cons_self)
  · rcases List.mem_cons.1 htr with rfl | htr
    · exact hf _ (h _ (by simp))
    · exact h _ (List.mem_cons_of_mem _ (List.mem_cons_of_mem _ htr))

theorem set_sorted (neg : G → Bool) (i c : Bool) (t : ℚ) (m : G) (tr : Trans G) (hs : (tr.keys.map (·.1)).Pairwise (· < ·)) :
    ((setTransform neg i c t m tr).keys.map (·.1)).Pairwise (· < ·) := by
  unfold setTransform
  simp only
  split_ifs
  all_goals first
    | exact addSlot_sorted _ _ _ hs
    | exact hs
    | skip
  all_goals
    cases hk : tr.keys with
    | nil => simp only; rw [hk]; simp
    | cons k ks =>
      simp only
      rw [hk] at hs
      have : (rekey neg k.2.mat m true ks).map (·.1) = ks.map (·.1) := by simp [rekey]
      have e : ∀ hd, (rekey neg k.2.mat m hd ks).map (·.1) = ks.map (·.1) := by intro hd; simp [rekey]
      simpa [e] using hs

theorem setCurrent_sorted (neg : G → Bool) (i : Bool) (t : ℚ) (m : G) (tr : Trans G) (hs : (tr.keys.map (·.1)).Pairwise (· < ·)) :
    ((setCurrent neg i t m tr).keys.map (·.1)).Pairwise (· < ·) := by
  unfold setCurrent
  simp only
  split_ifs
  all_goals first
    | exact addSlot_sorted _ _ _ hs
    | exact hs

theorem concat_sorted (neg : G → Bool) (i : Bool) (t : ℚ) (m : G) (tr : Trans G) (hs : (tr.keys.map (·.1)).Pairwise (· < ·)) :
    ((concatCurrent neg i t m tr).keys.map (·.1)).Pairwise (· < ·) := by
  unfold concatCurrent
  simp only
  split_ifs
  all_goals first
    | exact concatSlot_sorted _ _ _ _ _ hs
    | exact hs
    | simpa [Function.comp_def] using hs

theorem advance_sorted {s s' : St G} (h : s.advance = some s') (hs : Sorted s) : Sorted s' := by
  unfold St.advance at h
  cases hm : s.cur.motion with
  | none => rw [hm] at h; cases h; exact hs
  | some mo =>
    rw [hm] at h
    simp only at h
    split_ifs at h
    cases h; exact hs

theorem setTime_sorted {neg : G → Bool} {s s' : St G} {m : G} (h : s.setTime neg m = some s') (hs : Sorted s) : Sorted s' := by
  unfold St.setTime at h
  obtain ⟨c, _, rfl⟩ := Option.map_eq_some_iff.1 h
  exact sorted_mod _ (fun tr => set_sorted _ _ _ _ _ tr) hs

theorem step_sorted {neg : G → Bool} {s s' : St G} {r : Req G} (h : step neg s r = some s') (hs : Sorted s) : Sorted s' := by
  cases r with
  | identity =>
    obtain ⟨a, h1, h2⟩ := Option.bind_eq_some_iff.1 h
    exact advance_sorted h2 (setTime_sorted h1 hs)
  | transform m =>
    by_cases hw : s.world
    · have h' : (s.setTime neg 1).bind (fun a => (a.concatTime neg m).advance) = some s' := by
        rw [← h]; show _ = ite _ _ _; rw [if_pos hw]; rfl
      obtain ⟨a, h1, h2⟩ := Option.bind_eq_some_iff.1 h'
      exact advance_sorted h2 (sorted_mod _ (fun tr => concat_sorted _ _ _ _ tr) (setTime_sorted h1 hs))
    · have h' : (s.setTime neg m).bind (fun a => a.advance) = some s' := by
        rw [← h]; show _ = ite _ _ _; rw [if_neg hw]; rfl
      obtain ⟨a, h1, h2⟩ := Option.bind_eq_some_iff.1 h'
      exact advance_sorted h2 (setTime_sorted h1 hs)
  | concat m =>
    exact advance_sorted (s := s.concatTime neg m) h (sorted_mod _ (fun tr => concat_sorted _ _ _ _ tr) hs)
  | coordSys m =>
    have h' : (if s.world then ((s.setCurrentTime neg 1).concatTime neg m).advance else (s.setCurrentTime neg m).advance)
        = some s' := h
    by_cases hw : s.world
    · rw [if_pos hw] at h'
      exact advance_sorted h' (sorted_mod _ (fun tr => concat_sorted _ _ _ _ tr)
        (sorted_mod _ (fun tr => setCurrent_sorted _ _ _ _ tr) hs))
    · rw [if_neg hw] at h'
      exact advance_sorted h' (sorted_mod _ (fun tr => setCurrent_sorted _ _ _ _ tr) hs)
  | push =>
    have h' : s' = if s.inMotion then s else { s with outer := s.cur :: s.outer, cur := ⟨none, true, s.cur.trans⟩ } := by
      cases h; rfl
    rw [h']
    split_ifs
    · exact hs
    · intro tr htr
      apply hs tr
      simp only [List.map_cons, List.mem_cons] at htr ⊢
      tauto
  | pop =>
    unfold step at h
    cases ho : s.outer with
    | nil => rw [ho] at h; cases h; split_ifs <;> exact hs
    | cons b bs =>
      rw [ho] at h; cases h
      split_ifs
      · intro tr htr
        apply hs tr
        rw [ho]
        simp only [List.map_cons, List.mem_cons] at htr ⊢
        tauto
      · exact hs
  | motionBegin ts =>
    have h' : (if s.inMotion then some s else (s.cur.trans.at (timeAt s.cur.trans.keys 0)).bind fun o =>
        some { s with outer := s.cur :: s.outer, cur := ⟨some ⟨ts, 0⟩, false, { s.cur.trans with dflt := o }⟩ }) = some s' := h
    split_ifs at h'
    · cases h'; exact hs
    · obtain ⟨o, _, h2⟩ := Option.bind_eq_some_iff.1 h'
      cases h2
      intro tr htr
      simp only [List.map_cons, List.mem_cons] at htr
      rcases htr with rfl | rfl | rfl | htr
      · exact hs _ (by simp)
      · exact hs s.cur.trans (by simp)
      · exact hs _ (by simp)
      · exact hs tr (List.mem_cons_of_mem _ (List.mem_cons_of_mem _ htr))
  | motionEnd =>
    unfold step at h
    cases ho : s.outer with
    | nil => rw [ho] at h; cases h; split_ifs <;> exact hs
    | cons b bs =>
      rw [ho] at h; cases h
      split_ifs
      · intro tr htr
        apply hs tr
        rw [ho]
        simp only [List.map_cons, List.mem_cons] at htr ⊢
        tauto
      · exact hs
  | worldBegin =>
    obtain ⟨o, _, h⟩ := Option.bind_eq_some_iff.1 h
    obtain ⟨s2, h1, h2⟩ := Option.bind_eq_some_iff.1 h
    cases h2
    have : Sorted s2 := by
      refine setTime_sorted h1 ?_
      split_ifs
      · intro tr htr
        apply hs tr
        simp only [List.mem_cons] at htr ⊢
        tauto
      · intro tr htr
        simp only [List.map_cons, List.mem_cons] at htr
        rcases htr with rfl | rfl | rfl | htr
        · exact hs _ (by simp)
        · exact hs s.cur.trans (by simp)
        · exact hs _ (by simp)
        · exact hs tr (List.mem_cons_of_mem _ (List.mem_cons_of_mem _ htr))
    exact this

/-- After any requests, the key times of all transformations are strictly increasing. -/
theorem C59_sorted (neg : G → Bool) (shutter : ℚ) (rs : List (Req G)) (s : St G) (h : run neg (initial shutter) rs = some s) :
    ∀ tr ∈ s.camera :: s.cur.trans :: s.outer.map (·.trans), (tr.keys.map (·.1)).Pairwise (· < ·) := by
  have : ∀ (rs : List (Req G)) (s0 : St G), Sorted s0 → run neg s0 rs = some s → Sorted s := by
    intro rs
    induction rs with
    | nil => intro s0 h0 h; cases h; exact h0
    | cons r rs ih =>
      intro s0 h0 h
      obtain ⟨a, h1, h2⟩ := Option.bind_eq_some_iff.1 h
      exact ih a (step_sorted h1 h0) h2
  refine this rs _ ?_ h
  intro tr htr
  simp only [initial, List.map_nil, List.mem_cons, List.not_mem_nil, or_false, or_self] at htr
  rw [htr]
  simp [Trans.new]

/-- Times given in decreasing order. -/
example : (run (fun _ : Multiplicative ℤ => false) (initial 0)
    [.worldBegin, .motionBegin [2, 1], .concat (.ofAdd 5), .concat (.ofAdd 7), .motionEnd]).map (fun s => s.cur.trans.keys.map (·.1))
      = some [1, 2] := by decide +kernel

/-! ## Merging of key times -/

theorem unique_mem (l : List ℚ) (x : ℚ) : x ∈ unique l ↔ x ∈ l := by
  induction l with
  | nil => rfl
  | cons a l ih =>
    cases l with
    | nil => rfl
    | cons b l =>
      unfold unique
      split_ifs with h
      · rw [ih, h]; simp
      · rw [List.mem_cons, ih]; simp

theorem unique_sorted (l : List ℚ) (h : l.Pairwise (· ≤ ·)) : (unique l).Pairwise (· < ·) := by
  induction l with
  | nil => exact .nil
  | cons a l ih =>
    rw [List.pairwise_cons] at h
    cases l with
    | nil => simp [unique]
    | cons b l =>
      unfold unique
      split_ifs with hab
      · exact ih h.2
      · rw [List.pairwise_cons]
        refine ⟨?_, ih h.2⟩
        intro x hx
        rw [unique_mem] at hx
        have hab' : a < b := lt_of_le_of_ne (h.1 b (by simp)) hab
        rcases List.mem_cons.1 hx with rfl | hx
        · exact hab'
        · exact lt_of_lt_of_le hab' ((List.pairwise_cons.1 h.2).1 x hx)

/-- The merged times of two moving transformations are their key times: in order, each once, nothing else. -/
theorem C59_merge (a b : Trans G) (ha : a.moving = true) (hb : b.moving = true) :
    (mergeKeyTimes a b).Pairwise (· < ·) ∧ ∀ t, t ∈ mergeKeyTimes a b ↔ (∃ k ∈ a.keys, k.1 = t) ∨ ∃ k ∈ b.keys, k.1 = t := by
  have hc : ∀ x : Trans G, x.moving = true → (List.range x.cTimes).map (timeAt x.keys) = x.keys.map (·.1) := by
    intro x hx
    unfold Trans.cTimes
    rw [if_pos hx]
    apply List.ext_getElem (by simp)
    intro i hi hi'
    have : i < x.keys.length := by simpa using hi'
    simp [timeAt, this]
  unfold mergeKeyTimes
  rw [hc a ha, hc b hb]
  constructor
  · apply unique_sorted
    exact List.pairwise_insertionSort (· ≤ ·) _
  · intro t
    rw [unique_mem, List.mem_insertionSort]
    simp

example : mergeKeyTimes (⟨[(0, ⟨1, false⟩), (1, ⟨1, false⟩)], ⟨1, false⟩, true, 1, false⟩ : Trans (Multiplicative ℤ))
    ⟨[(1 / 2, ⟨1, false⟩), (1, ⟨1, false⟩)], ⟨1, false⟩, true, 1, false⟩ = [0, 1 / 2, 1] := by decide +kernel

/-! ## Motion blocks with too many requests -/

/-- A motion block with more changes than times fails the assertion. -/
theorem C59_overflow (neg : G → Bool) (s : St G) (ts : List ℚ) (cs : List (Change G)) (hs : s.inMotion = false)
    (hl : ts.length < cs.length) : run neg s (.motionBegin ts :: cs.map Change.toReq) = none := by
  have key : ∀ (cs : List (Change G)) (s : St G) (i : Nat), s.cur.motion = some ⟨ts, i⟩ → ts.length - i < cs.length →
      run neg s (cs.map Change.toReq) = none := by
    intro cs
    induction cs with
    | nil => intro s i _ h; simp at h
    | cons c cs ih =>
      intro s i hm hi
      rw [List.map_cons, run]
      cases h : step neg s c.toReq with
      | none => rfl
      | some s' =>
        have hadv : ∃ s1 : St G, s1.cur.motion = s.cur.motion ∧ s1.advance = some s' := by
          have hset : ∀ m s1, s.setTime neg m = some s1 → s1.cur.motion = s.cur.motion := by
            intro m s1 h1
            unfold St.setTime at h1
            obtain ⟨c, _, rfl⟩ := Option.map_eq_some_iff.1 h1
            rfl
          cases c with
          | identity =>
            obtain ⟨a, h1, h2⟩ := Option.bind_eq_some_iff.1 h
            exact ⟨a, hset _ _ h1, h2⟩
          | transform m =>
            by_cases hw : s.world
            · have h' : (s.setTime neg 1).bind (fun a => (a.concatTime neg m).advance) = some s' := by
                rw [← h]; show _ = ite _ _ _; rw [if_pos hw]; rfl
              obtain ⟨a, h1, h2⟩ := Option.bind_eq_some_iff.1 h'
              exact ⟨a.concatTime neg m, (hset _ _ h1 : a.cur.motion = _), h2⟩
            · have h' : (s.setTime neg m).bind (fun a => a.advance) = some s' := by
                rw [← h]; show _ = ite _ _ _; rw [if_neg hw]; rfl
              obtain ⟨a, h1, h2⟩ := Option.bind_eq_some_iff.1 h'
              exact ⟨_, hset _ _ h1, h2⟩
          | concat m => exact ⟨s.concatTime neg m, rfl, h⟩
        obtain ⟨s1, q1, q2⟩ := hadv
        rw [hm] at q1
        unfold St.advance at q2
        rw [q1] at q2
        simp only at q2
        split_ifs at q2 with hle
        cases q2
        apply ih _ (i + 1) rfl
        simp only [List.length_cons] at hi
        omega
  rw [run]
  cases h : step neg s (.motionBegin ts) with
  | none => rfl
  | some s' =>
    have h' : (if s.inMotion then some s else (s.cur.trans.at (timeAt s.cur.trans.keys 0)).bind fun o =>
        some { s with outer := s.cur :: s.outer, cur := ⟨some ⟨ts, 0⟩, false, { s.cur.trans with dflt := o }⟩ }) = some s' := h
    rw [hs, if_neg (by simp)] at h'
    obtain ⟨o, _, h2⟩ := Option.bind_eq_some_iff.1 h'
    cases h2
    exact key cs _ 0 rfl (by simpa using hl)

example : (run (fun _ : Multiplicative ℤ => false) (initial 0) [.motionBegin [0], .concat (.ofAdd 5), .concat (.ofAdd 7)]).isNone := by
  decide +kernel

/-! ## Violations -/

/-- The matrices seen at the given times. -/
def seen (ts : List ℚ) (r : Option (St G)) : Option (List (Option (Obj G))) := r.map fun s => ts.map s.cur.trans.at

/-- A moving camera: translations 10 and 20. An object that moves by 1 and 2 at the same times has the matrices of the camera in
its transformation (11 and 22 instead of 1 and 2). -/
theorem C59_camera_violated :
    seen [0, 1] (run (fun _ : Multiplicative ℤ => false) (initial 0) [.motionBegin [0, 1], .concat (.ofAdd 10), .concat (.ofAdd 20), .motionEnd,
      .worldBegin, .push, .motionBegin [0, 1], .concat (.ofAdd 1), .concat (.ofAdd 2), .motionEnd])
      = some [some ⟨.ofAdd 11, false⟩, some ⟨.ofAdd 22, false⟩] := by decide +kernel

/-- A moving transformation is set outside of a motion block: the object still moves (7 and 2 instead of 7 and 7). -/
theorem C59_set_violated :
    seen [0, 1] (run (fun _ : Multiplicative ℤ => false) (initial 0) [.worldBegin, .motionBegin [0, 1], .concat (.ofAdd 0), .concat (.ofAdd 5),
      .motionEnd, .transform (.ofAdd 7)])
      = some [some ⟨.ofAdd 7, false⟩, some ⟨.ofAdd 2, false⟩] := by decide +kernel

/-- A second motion block with other times: at 1, the change of the second block that should have been made from 0 on is missing
(5 instead of at least 105), at 1/2 the matrix is that of 0 (with 100, without anything of the first motion). -/
theorem C59_times_violated :
    seen [0, 1 / 2, 1] (run (fun _ : Multiplicative ℤ => false) (initial 0) [.worldBegin, .motionBegin [0, 1], .concat (.ofAdd 1), .concat (.ofAdd 5),
      .motionEnd, .motionBegin [0, 1 / 2], .concat (.ofAdd 100), .concat (.ofAdd 100), .motionEnd])
      = some [some ⟨.ofAdd 101, false⟩, some ⟨.ofAdd 101, false⟩, some ⟨.ofAdd 5, false⟩] := by decide +kernel

/-- `CoordSysTransform` with a matrix of positive determinant leaves the handedness of the matrix that it replaces: the matrix is
the identity, as for `Identity`, but the handedness differs. -/
theorem C59_hand_violated :
    seen [0] (run (fun u : ℤˣ => u == -1) (initial 0) [.worldBegin, .concat (-1), .coordSys 1]) = some [some ⟨1, true⟩] ∧
    seen [0] (run (fun u : ℤˣ => u == -1) (initial 0) [.worldBegin, .concat (-1), .identity]) = some [some ⟨1, false⟩] := by
  decide +kernel

/-- In a motion block it is the other way round: the identity has the handedness of a reflection. -/
theorem C59_hand_motion_violated :
    seen [0] (run (fun u : ℤˣ => u == -1) (initial 0) [.worldBegin, .motionBegin [0], .coordSys 1, .motionEnd]) = some [some ⟨1, true⟩] ∧
    seen [0] (run (fun u : ℤˣ => u == -1) (initial 0) [.worldBegin, .motionBegin [0], .identity, .motionEnd]) = some [some ⟨1, false⟩] := by
  decide +kernel

/-- Between two times the matrix is that of the earlier one. -/
theorem C59_between_violated :
    seen [0, 1 / 2, 1] (run (fun _ : Multiplicative ℤ => false) (initial 0) [.worldBegin, .motionBegin [0, 1], .concat (.ofAdd 0), .concat (.ofAdd 10),
      .motionEnd])
      = some [some ⟨.ofAdd 0, false⟩, some ⟨.ofAdd 0, false⟩, some ⟨.ofAdd 10, false⟩] := by decide +kernel

/-- For points with the times -1 and 1 and a camera that does not move, there is a further key at the time 0, where the matrix is
that of the time -1: the points stand still until 0. -/
theorem C59_points_violated :
    (run (fun _ : Multiplicative ℤ => false) (initial 0) [.worldBegin, .motionBegin [-1, 1], .concat (.ofAdd 0), .concat (.ofAdd 10),
      .motionEnd]).map (fun s => (mergeKeyTimes s.cur.trans s.camera, (mergeKeyTimes s.cur.trans s.camera).map s.cur.trans.at))
      = some ([-1, 0, 1], [some ⟨.ofAdd 0, false⟩, some ⟨.ofAdd 0, false⟩, some ⟨.ofAdd 10, false⟩]) := by decide +kernel

end Verif.State.Transform
