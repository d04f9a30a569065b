import Verif.State.Transform
import Mathlib.Tactic.ByContra
import Mathlib.Tactic.SplitIfs
import Mathlib.Tactic.Linarith
import Mathlib.Data.List.Sort

/-!
# What the transformations should be

In the specification a transformation is a list of matrices, one for each of the times `ts`.
-/

namespace Verif.State.Transform

variable {G : Type} [Group G]

/-- A change of the transformation. -/
inductive Change (G : Type) where
  | identity
  | transform (m : G)
  | concat (m : G)

/-- What it does to a matrix. -/
def Change.apply : Change G → G → G
  | .identity, _ => 1
  | .transform m, _ => m
  | .concat m, c => c * m

def Change.toReq : Change G → Req G
  | .identity => .identity
  | .transform m => .transform m
  | .concat m => .concat m

/-- A request of the specification: a change outside of motion blocks, a motion block with one change for each time, begin and
end of a transform block. -/
inductive Act (G : Type) where
  | change (c : Change G)
  | motion (cs : List (Change G))
  | push
  | pop

def Act.reqs (ts : List ℚ) : Act G → List (Req G)
  | .change c => [c.toReq]
  | .motion cs => .motionBegin ts :: cs.map Change.toReq ++ [.motionEnd]
  | .push => [.push]
  | .pop => [.pop]

/-- A matrix for each time, and whether a motion block was involved. -/
structure Mats (G : Type) where
  moving : Bool
  mats : List G

/-- Matrices of the current block and of those around it. -/
structure Spec (G : Type) where
  cur : Mats G
  outer : List (Mats G)

def Spec.step (s : Spec G) : Act G → Spec G
  | .change c => { s with cur := ⟨s.cur.moving, s.cur.mats.map c.apply⟩ }
  | .motion cs => { s with cur := ⟨true, List.zipWith Change.apply cs s.cur.mats⟩ }
  | .push => { s with outer := s.cur :: s.outer }
  | .pop => match s.outer with
    | [] => s
    | m :: ms => ⟨m, ms⟩

/-- Motion blocks have one change for each time. A moving transformation is not set, outside of motion blocks. -/
def Spec.Ok (n : Nat) (s : Spec G) : List (Act G) → Prop
  | [] => True
  | a :: as => (match a with
      | .change (.concat _) => True
      | .change _ => s.cur.moving = false
      | .motion cs => cs.length = n
      | _ => True) ∧ Spec.Ok n (s.step a) as

def Spec.run (s : Spec G) (as : List (Act G)) : Spec G := as.foldl Spec.step s

/-- A matrix with the handedness that belongs to it. -/
def mkO (neg : G → Bool) (ch : Bool) (m : G) : Obj G := ⟨m, xor ch (neg m)⟩

def mkKeys (neg : G → Bool) (ch : Bool) (ts : List ℚ) (ms : List G) : List (ℚ × Obj G) :=
  List.zipWith (fun t m => (t, mkO neg ch m)) ts ms

/-- The determinant is negative, or it is not. -/
structure Sign (neg : G → Bool) : Prop where
  mul : ∀ a b, neg (a * b) = xor (neg a) (neg b)

theorem Sign.one {neg : G → Bool} (h : Sign neg) : neg 1 = false := by
  have := h.mul 1 1
  rw [mul_one] at this
  cases h1 : neg 1 <;> simp_all

theorem concat_mkO {neg : G → Bool} (hn : Sign neg) (ch : Bool) (a m : G) :
    concatObj neg (mkO neg ch a) m = mkO neg ch (a * m) := by
  unfold concatObj mkO
  simp only [hn.mul]
  cases ch <;> cases neg a <;> cases neg m <;> rfl

theorem slotExists_append {A : List (ℚ × Obj G)} {t : ℚ} (hA : ∀ k ∈ A, k.1 < t) (B) :
    slotExists (A ++ B) t = slotExists B t := by
  unfold slotExists
  rw [List.any_append]
  have : (A.any fun x => x.1 == t) = false := by
    rw [List.any_eq_false]
    intro k hk
    have := hA k hk
    simp only [beq_iff_eq]
    exact ne_of_lt this
  rw [this, Bool.false_or]

theorem modSlot_append {A : List (ℚ × Obj G)} {t : ℚ} (hA : ∀ k ∈ A, k.1 < t) (f) (o) (B) :
    modSlot t f (A ++ (t, o) :: B) = A ++ (t, f o) :: B := by
  induction A with
  | nil => simp [modSlot]
  | cons k A ih =>
    have := hA k (by simp)
    rw [List.cons_append, modSlot, if_neg (ne_of_lt this), ih (fun k hk => hA k (by simp [hk])), List.cons_append]

theorem insertSlot_append {A : List (ℚ × Obj G)} {t : ℚ} (hA : ∀ k ∈ A, k.1 < t) (o) :
    insertSlot t o A = A ++ [(t, o)] := by
  induction A with
  | nil => rfl
  | cons k A ih =>
    rw [insertSlot, if_pos (hA k (by simp)), ih (fun k hk => hA k (by simp [hk])), List.cons_append]

/-- The rest of the keys: none, or the keys for the rest of the times. -/
theorem addSlot_append {A : List (ℚ × Obj G)} {t : ℚ} (hA : ∀ k ∈ A, k.1 < t) (o) (B : List (ℚ × Obj G))
    (hB : B = [] ∨ ∃ o' B', B = (t, o') :: B') : addSlot (A ++ B) t o = A ++ (t, o) :: B.tail := by
  unfold addSlot
  rw [slotExists_append hA]
  rcases hB with rfl | ⟨o', B', rfl⟩
  · rw [if_neg (by simp [slotExists]), List.append_nil, insertSlot_append hA]; rfl
  · rw [if_pos (by simp [slotExists]), modSlot_append hA]; rfl

theorem concatSlot_append (neg : G → Bool) {A : List (ℚ × Obj G)} {t : ℚ} (hA : ∀ k ∈ A, k.1 < t) (dflt o : Obj G) (m : G)
    (B : List (ℚ × Obj G)) (hB : (B = [] ∧ o = dflt) ∨ ∃ B', B = (t, o) :: B') :
    concatSlot neg (A ++ B) dflt t m = A ++ (t, concatObj neg o m) :: B.tail := by
  unfold concatSlot
  rw [slotExists_append hA]
  rcases hB with ⟨rfl, rfl⟩ | ⟨B', rfl⟩
  · rw [if_neg (by simp [slotExists]), addSlot_append hA _ _ (Or.inl rfl), modSlot_append hA]
  · rw [if_pos (by simp [slotExists]), modSlot_append hA]; rfl

/-- What the camera looks like. -/
def Cam (neg : G → Bool) (ch : Bool) (s : St G) : Prop := ∀ t, ∃ c, s.camera.at t = some c ∧ neg c.mat = ch

theorem setTime_eq {neg : G → Bool} {ch : Bool} {s : St G} (hc : Cam neg ch s) (m : G) :
    s.setTime neg m = some (s.modTrans (setTransform neg s.inMotion ch s.time m)) := by
  obtain ⟨c, h1, h2⟩ := hc s.time
  unfold St.setTime
  rw [h1, ← h2]
  rfl

/-- One change in a motion block. -/
theorem step_motion {neg : G → Bool} (hn : Sign neg) {ch : Bool} {s : St G} (hc : Cam neg ch s) (hw : s.world = true)
    {ta tb : List ℚ} {t : ℚ} (hm : s.cur.motion = some ⟨ta ++ t :: tb, ta.length⟩) {A B : List (ℚ × Obj G)}
    (hk : s.cur.trans.keys = A ++ B) (hA : ∀ k ∈ A, k.1 < t) {m : G}
    (hB : (B = [] ∧ mkO neg ch m = s.cur.trans.dflt) ∨ ∃ B', B = (t, mkO neg ch m) :: B') (c : Change G) :
    step neg s c.toReq = some { s with
      cur := ⟨some ⟨ta ++ t :: tb, ta.length + 1⟩, s.cur.closable, { s.cur.trans with
        keys := A ++ (t, mkO neg ch (c.apply m)) :: B.tail, moving := true }⟩ } := by
  have ht : s.time = t := by
    unfold St.time; rw [hm]; simp
  have hin : s.inMotion = true := by unfold St.inMotion; rw [hm]; rfl
  have hB' : B = [] ∨ ∃ o' B', B = (t, o') :: B' := by
    rcases hB with h | ⟨B', h⟩
    · exact Or.inl h.1
    · exact Or.inr ⟨_, _, h⟩
  have adv : ∀ tr : Trans G, (s.modTrans fun _ => tr).advance = some { s with cur := ⟨some ⟨ta ++ t :: tb, ta.length + 1⟩, s.cur.closable, tr⟩ } := by
    intro tr
    unfold St.advance St.modTrans
    simp only [hm]
    rw [if_pos (by simp)]
  have h1 : (if neg (1 : G) then !ch else ch) = xor ch (neg (1 : G)) := by rw [hn.one]; simp
  cases c with
  | identity =>
    show (do (← s.setTime neg 1).advance) = _
    rw [setTime_eq hc]
    show (s.modTrans fun tr => _).advance = _
    have : s.modTrans (setTransform neg s.inMotion ch s.time 1)
        = s.modTrans fun _ => { s.cur.trans with keys := A ++ (t, mkO neg ch 1) :: B.tail, moving := true } := by
      unfold St.modTrans setTransform
      simp only [hin, if_true, hk, ht, h1]
      rw [addSlot_append hA _ _ hB']
      rfl
    rw [this, adv]
    rfl
  | transform m' =>
    show (do if s.world then ((← s.setTime neg 1).concatTime neg m').advance else (← s.setTime neg m').advance) = _
    rw [if_pos hw, setTime_eq hc]
    show ((s.modTrans (setTransform neg s.inMotion ch s.time 1)).concatTime neg m').advance = _
    have : s.modTrans (setTransform neg s.inMotion ch s.time 1)
        = s.modTrans fun _ => { s.cur.trans with keys := A ++ (t, mkO neg ch 1) :: B.tail, moving := true } := by
      unfold St.modTrans setTransform
      simp only [hin, if_true, hk, ht, h1]
      rw [addSlot_append hA _ _ hB']
      rfl
    rw [this]
    have h2 : (s.modTrans fun _ => { s.cur.trans with keys := A ++ (t, mkO neg ch 1) :: B.tail, moving := true }).concatTime neg m'
        = s.modTrans fun _ => { s.cur.trans with keys := A ++ (t, mkO neg ch m') :: B.tail, moving := true } := by
      have ht' : (s.modTrans fun _ => { s.cur.trans with keys := A ++ (t, mkO neg ch 1) :: B.tail, moving := true }).time = t := ht
      have hin' : (s.modTrans fun _ => { s.cur.trans with keys := A ++ (t, mkO neg ch 1) :: B.tail, moving := true }).inMotion = true := hin
      unfold St.concatTime
      rw [ht', hin']
      unfold St.modTrans concatCurrent
      simp only [if_true]
      rw [concatSlot_append neg hA _ (mkO neg ch 1) _ _ (Or.inr ⟨_, rfl⟩), concat_mkO hn, one_mul]
      rfl
    rw [h2, adv]
    rfl
  | concat m' =>
    show (s.concatTime neg m').advance = _
    have : s.concatTime neg m'
        = s.modTrans fun _ => { s.cur.trans with keys := A ++ (t, mkO neg ch (m * m')) :: B.tail, moving := true } := by
      unfold St.concatTime
      rw [ht, hin]
      unfold St.modTrans concatCurrent
      simp only [if_true]
      rw [hk, concatSlot_append neg hA _ (mkO neg ch m) _ _ hB, concat_mkO hn]
    rw [this, adv]
    rfl

/-- The changes of a motion block. -/
theorem run_motion {neg : G → Bool} (hn : Sign neg) {ch : Bool} (tb : List ℚ) :
    ∀ (s : St G), Cam neg ch s → s.world = true → ∀ (ta : List ℚ),
    s.cur.motion = some ⟨ta ++ tb, ta.length⟩ → ∀ (A B : List (ℚ × Obj G)), s.cur.trans.keys = A ++ B → A.map Prod.fst = ta →
    (ta ++ tb).Pairwise (· < ·) → ∀ (olds : List G), olds.length = tb.length →
    ((B = [] ∧ ∀ m ∈ olds, mkO neg ch m = s.cur.trans.dflt) ∨ B = mkKeys neg ch tb olds) →
    ∀ (cs : List (Change G)), cs.length = tb.length →
    run neg s (cs.map Change.toReq) = some { s with
      cur := ⟨some ⟨ta ++ tb, (ta ++ tb).length⟩, s.cur.closable, { s.cur.trans with
        keys := A ++ mkKeys neg ch tb (List.zipWith Change.apply cs olds), moving := s.cur.trans.moving || !tb.isEmpty }⟩ } := by
  induction tb with
  | nil =>
    intro s _ _ ta hm A B hk _ _ olds ho hB cs hcs
    have hcs : cs = [] := List.length_eq_zero_iff.1 hcs
    have hB : B = [] := by
      rcases hB with h | h
      · exact h.1
      · rw [h]; rfl
    subst hcs hB
    simp only [List.append_nil] at hm hk
    simp only [List.map_nil, run, List.append_nil, mkKeys, List.zipWith_nil_left, List.isEmpty_nil, Bool.not_true, Bool.or_false]
    rw [← hk, ← hm]
  | cons t tb ih =>
    intro s hc hw ta hm A B hk hAm hp olds ho hB cs hcs
    match olds, cs, ho, hcs with
    | m :: olds, c :: cs, ho, hcs =>
      simp only [List.length_cons, Nat.add_right_cancel_iff] at ho hcs
      have hA : ∀ k ∈ A, k.1 < t := by
        intro k hk
        have h1 : k.1 ∈ ta := by rw [← hAm]; exact List.mem_map_of_mem hk
        rw [List.pairwise_append] at hp
        exact hp.2.2 _ h1 t (by simp)
      have hB1 : (B = [] ∧ mkO neg ch m = s.cur.trans.dflt) ∨ ∃ B', B = (t, mkO neg ch m) :: B' := by
        rcases hB with ⟨h1, h2⟩ | h
        · exact Or.inl ⟨h1, h2 m (by simp)⟩
        · exact Or.inr ⟨mkKeys neg ch tb olds, h⟩
      have hst := step_motion hn hc hw hm hk hA hB1 c
      rw [List.map_cons, run, hst, Option.bind_some]
      have e : ta ++ t :: tb = (ta ++ [t]) ++ tb := by simp
      have el : ta.length + 1 = (ta ++ [t]).length := by simp
      have hB2 : (B.tail = [] ∧ ∀ m ∈ olds, mkO neg ch m = s.cur.trans.dflt) ∨ B.tail = mkKeys neg ch tb olds := by
        rcases hB with ⟨h1, h2⟩ | h
        · exact Or.inl ⟨by rw [h1]; rfl, fun m hm => h2 m (by simp [hm])⟩
        · exact Or.inr (by rw [h]; rfl)
      have := ih { s with cur := ⟨some ⟨ta ++ t :: tb, ta.length + 1⟩, s.cur.closable, { s.cur.trans with
          keys := A ++ (t, mkO neg ch (c.apply m)) :: B.tail, moving := true }⟩ } hc hw (ta ++ [t])
        (by simp) (A ++ [(t, mkO neg ch (c.apply m))]) B.tail (by simp)
        (by simp [hAm]) (by simpa using hp) olds ho hB2 cs hcs
      rw [this]
      simp [mkKeys]

/-- The transformation of a block is that of the specification. -/
def Rel (neg : G → Bool) (ch : Bool) (ts : List ℚ) (tr : Trans G) (sp : Mats G) : Prop :=
  sp.mats.length = ts.length ∧
  if sp.moving then tr.moving = true ∧ tr.keys = mkKeys neg ch ts sp.mats
  else tr.moving = false ∧ tr.keys = [] ∧ (∀ m ∈ sp.mats, m = tr.static) ∧ tr.hand = xor ch (neg tr.static)

/-- The state is that of the specification; `base` are the blocks around the world. -/
structure RelS (neg : G → Bool) (ch : Bool) (ts : List ℚ) (base : List (Blk G)) (s : St G) (sp : Spec G) : Prop where
  cam : Cam neg ch s
  world : s.world = true
  motion : s.cur.motion = none
  cur : Rel neg ch ts s.cur.trans sp.cur
  outer : ∃ bs, s.outer = bs ++ base ∧ List.Forall₂ (fun b m => b.motion = none ∧ Rel neg ch ts b.trans m) bs sp.outer
    ∧ (s.cur :: bs).map (·.closable) = List.replicate bs.length true ++ [false]

theorem rel_mod {neg : G → Bool} {ch : Bool} {ts : List ℚ} {base : List (Blk G)} {s : St G} {sp : Spec G}
    (h : RelS neg ch ts base s sp) (f : Trans G → Trans G) {sp' : Mats G} (hr : Rel neg ch ts (f s.cur.trans) sp') :
    RelS neg ch ts base (s.modTrans f) { sp with cur := sp' } :=
  ⟨h.cam, h.world, h.motion, hr, h.outer⟩

theorem advance_none {s : St G} (h : s.cur.motion = none) : s.advance = some s := by
  unfold St.advance; rw [h]

theorem rel_concat {neg : G → Bool} (hn : Sign neg) {ch : Bool} {ts : List ℚ} {tr : Trans G} {sp : Mats G}
    (h : Rel neg ch ts tr sp) (t : ℚ) (m : G) :
    Rel neg ch ts (concatCurrent neg false t m tr) ⟨sp.moving, sp.mats.map fun a => a * m⟩ := by
  obtain ⟨hl, h⟩ := h
  refine ⟨by simpa using hl, ?_⟩
  cases hm : sp.moving with
  | true =>
    rw [hm, if_pos rfl] at h
    simp only [if_true]
    unfold concatCurrent
    rw [if_neg (by simp), if_pos h.1]
    refine ⟨h.1, ?_⟩
    show (tr.keys.map fun k => (k.1, concatObj neg k.2 m)) = _
    rw [h.2]
    unfold mkKeys
    rw [List.map_zipWith, List.zipWith_map_right]
    congr 1
    funext a b
    rw [concat_mkO hn]
  | false =>
    rw [hm, if_neg (by simp)] at h
    obtain ⟨h1, h2, h3, h4⟩ := h
    rw [if_neg (by simp)]
    unfold concatCurrent
    rw [if_neg (by simp), if_neg (by simp [h1])]
    refine ⟨h1, h2, ?_, ?_⟩
    · intro a ha
      obtain ⟨b, hb, rfl⟩ := List.mem_map.1 ha
      show b * m = tr.static * m
      rw [h3 b hb]
    · show (if neg m then !tr.hand else tr.hand) = xor ch (neg (tr.static * m))
      rw [h4, hn.mul]
      cases ch <;> cases neg tr.static <;> cases neg m <;> rfl

theorem rel_set {neg : G → Bool} {ch : Bool} {ts : List ℚ} {tr : Trans G} {sp : Mats G} (hm : sp.moving = false)
    (h : Rel neg ch ts tr sp) (t : ℚ) (m : G) :
    Rel neg ch ts (setTransform neg false ch t m tr) ⟨sp.moving, sp.mats.map fun _ => m⟩ := by
  obtain ⟨hl, h⟩ := h
  refine ⟨by simpa using hl, ?_⟩
  rw [hm, if_neg (by simp)] at h
  obtain ⟨h1, h2, h3, h4⟩ := h
  simp only [hm]
  rw [if_neg (by simp)]
  unfold setTransform
  rw [if_neg (by simp), if_neg (by simp [h1])]
  refine ⟨h1, h2, ?_, ?_⟩
  · intro a ha
    obtain ⟨b, hb, rfl⟩ := List.mem_map.1 ha
    rfl
  · show (if neg m then !ch else ch) = xor ch (neg m)
    cases ch <;> cases neg m <;> rfl

theorem time_none {s : St G} (h : s.cur.motion = none) : s.time = s.shutter := by
  unfold St.time; rw [h]

theorem inMotion_none {s : St G} (h : s.cur.motion = none) : s.inMotion = false := by
  unfold St.inMotion; rw [h]; rfl

theorem act_change {neg : G → Bool} (hn : Sign neg) {ch : Bool} {ts : List ℚ} {base : List (Blk G)} {s : St G} {sp : Spec G}
    (h : RelS neg ch ts base s sp) (c : Change G) (hok : (∀ m, c ≠ .concat m) → sp.cur.moving = false) :
    ∃ s', step neg s c.toReq = some s' ∧ RelS neg ch ts base s' (sp.step (.change c)) := by
  have hin := inMotion_none h.motion
  cases c with
  | identity =>
    refine ⟨s.modTrans (setTransform neg false ch s.time 1), ?_, ?_⟩
    · show (do (← s.setTime neg 1).advance) = _
      rw [setTime_eq h.cam, hin]
      exact advance_none (by exact h.motion)
    · exact rel_mod h _ (rel_set (hok (by simp)) h.cur _ 1)
  | transform m =>
    have h1 := rel_mod h _ (rel_set (hok (by simp)) h.cur s.time 1)
    have h2 := rel_mod h1 _ (rel_concat hn h1.cur s.time m)
    refine ⟨(s.modTrans (setTransform neg false ch s.time 1)).modTrans (concatCurrent neg false s.time m), ?_, ?_⟩
    · show (do if s.world then ((← s.setTime neg 1).concatTime neg m).advance else (← s.setTime neg m).advance) = _
      rw [if_pos h.world, setTime_eq h.cam, hin]
      show St.advance (St.concatTime neg (s.modTrans (setTransform neg false ch s.time 1)) m) = _
      have e : St.concatTime neg (s.modTrans (setTransform neg false ch s.time 1)) m
          = (s.modTrans (setTransform neg false ch s.time 1)).modTrans (concatCurrent neg false s.time m) := by
        unfold St.concatTime
        rw [inMotion_none h1.motion]
        rfl
      rw [e]
      exact advance_none (by exact h.motion)
    · have e : (sp.cur.mats.map fun _ => (1 : G)).map (fun a => a * m) = sp.cur.mats.map (Change.transform m).apply := by
        rw [List.map_map]
        apply List.map_congr_left
        intro a _
        show (1 : G) * m = m
        rw [one_mul]
      simp only [e] at h2
      exact h2
  | concat m =>
    refine ⟨s.modTrans (concatCurrent neg false s.time m), ?_, ?_⟩
    · show (s.concatTime neg m).advance = _
      unfold St.concatTime
      rw [hin]
      exact advance_none (by exact h.motion)
    · exact rel_mod h _ (rel_concat hn h.cur _ m)

theorem run_append (neg : G → Bool) (s : St G) (a b : List (Req G)) :
    run neg s (a ++ b) = (run neg s a).bind fun s => run neg s b := by
  induction a generalizing s with
  | nil => rfl
  | cons r a ih =>
    rw [List.cons_append, run, run]
    cases step neg s r with
    | none => rfl
    | some s' => exact ih s'

theorem mkKeys_ne_nil {neg : G → Bool} {ch : Bool} {ts : List ℚ} {ms : List G} (hl : ms.length = ts.length) (ht : ts ≠ []) :
    ∃ m ks, mkKeys neg ch ts ms = (ts.head ht, mkO neg ch m) :: ks := by
  match ts, ms, hl, ht with
  | t :: ts, m :: ms, _, _ => exact ⟨m, _, rfl⟩

theorem act_motion {neg : G → Bool} (hn : Sign neg) {ch : Bool} {ts : List ℚ} (ht : ts ≠ []) (hp : ts.Pairwise (· < ·))
    {base : List (Blk G)} {s : St G} {sp : Spec G}
    (h : RelS neg ch ts base s sp) (cs : List (Change G)) (hcs : cs.length = ts.length) :
    ∃ s', run neg s (Act.reqs ts (.motion cs)) = some s' ∧ RelS neg ch ts base s' (sp.step (.motion cs)) := by
  have hin := inMotion_none h.motion
  obtain ⟨hl, hr⟩ := h.cur
  have hat : ∃ o, s.cur.trans.at (timeAt s.cur.trans.keys 0) = some o ∧ (sp.cur.moving = false →
      ∀ m ∈ sp.cur.mats, mkO neg ch m = o) := by
    cases hm : sp.cur.moving with
    | true =>
      rw [hm, if_pos rfl] at hr
      obtain ⟨m, ks, hk⟩ := mkKeys_ne_nil (neg := neg) (ch := ch) hl ht
      unfold Trans.at interpolated
      rw [if_pos hr.1, hr.2, hk]
      rw [List.getLast?_cons]
      simp only
      split_ifs
      · exact ⟨_, rfl, by simp⟩
      · exact ⟨_, rfl, by simp⟩
      · exact ⟨_, rfl, by simp⟩
    | false =>
      rw [hm, if_neg (by simp)] at hr
      unfold Trans.at
      rw [if_neg (by simp [hr.1])]
      refine ⟨_, rfl, fun _ m hmm => ?_⟩
      unfold mkO
      rw [hr.2.2.1 m hmm, hr.2.2.2]
  obtain ⟨o, ho, hmo⟩ := hat
  have hbeg : step neg s (.motionBegin ts)
      = some { s with outer := s.cur :: s.outer, cur := ⟨some ⟨ts, 0⟩, false, { s.cur.trans with dflt := o }⟩ } := by
    show (if s.inMotion then some s else _) = _
    rw [hin, if_neg (by simp), ho]
    rfl
  have hB : (s.cur.trans.keys = [] ∧ ∀ m ∈ sp.cur.mats, mkO neg ch m = o) ∨ s.cur.trans.keys = mkKeys neg ch ts sp.cur.mats := by
    cases hm : sp.cur.moving with
    | true => rw [hm, if_pos rfl] at hr; exact Or.inr hr.2
    | false => rw [hm, if_neg (by simp)] at hr; exact Or.inl ⟨hr.2.1, hmo hm⟩
  have hrun := run_motion hn ts
    { s with outer := s.cur :: s.outer, cur := ⟨some ⟨ts, 0⟩, false, { s.cur.trans with dflt := o }⟩ } h.cam h.world [] rfl []
    s.cur.trans.keys rfl rfl hp sp.cur.mats hl hB cs hcs
  refine ⟨{ s with cur := { s.cur with trans := { s.cur.trans with
      dflt := o, keys := mkKeys neg ch ts (List.zipWith Change.apply cs sp.cur.mats), moving := true } } }, ?_, ?_⟩
  · show run neg s (.motionBegin ts :: cs.map Change.toReq ++ [.motionEnd]) = _
    rw [List.cons_append, run, hbeg, Option.bind_some, run_append, hrun, Option.bind_some]
    have hne : (!ts.isEmpty) = true := by cases ts with
      | nil => exact absurd rfl ht
      | cons _ _ => rfl
    simp only [List.nil_append, hne, Bool.or_true]
    rfl
  · refine ⟨h.cam, h.world, h.motion, ?_, h.outer⟩
    refine ⟨by simp [Spec.step, hcs, hl], ?_⟩
    simp [Spec.step]

theorem act_push {neg : G → Bool} {ch : Bool} {ts : List ℚ} {base : List (Blk G)} {s : St G} {sp : Spec G}
    (h : RelS neg ch ts base s sp) :
    ∃ s', step neg s .push = some s' ∧ RelS neg ch ts base s' (sp.step .push) := by
  have hin := inMotion_none h.motion
  obtain ⟨bs, h1, h2, h3⟩ := h.outer
  refine ⟨{ s with outer := s.cur :: s.outer, cur := ⟨none, true, s.cur.trans⟩ }, ?_, h.cam, h.world, rfl, h.cur, ?_⟩
  · show some (if s.inMotion then s else _) = _
    rw [hin]; rfl
  · refine ⟨s.cur :: bs, by rw [h1]; rfl, .cons ⟨h.motion, h.cur⟩ h2, ?_⟩
    rw [List.map_cons, h3]
    rfl

theorem act_pop {neg : G → Bool} {ch : Bool} {ts : List ℚ} {base : List (Blk G)} {s : St G} {sp : Spec G}
    (h : RelS neg ch ts base s sp) :
    ∃ s', step neg s .pop = some s' ∧ RelS neg ch ts base s' (sp.step .pop) := by
  obtain ⟨bs, h1, h2, h3⟩ := h.outer
  match bs, hspo : sp.outer, h2 with
  | [], [], _ =>
    refine ⟨s, ?_, ?_⟩
    · show some (if s.cur.closable then _ else s) = _
      have : s.cur.closable = false := by simpa using h3
      rw [this]; rfl
    · have e : sp.step .pop = sp := by unfold Spec.step; rw [hspo]
      rw [e]; exact h
  | b :: bs, m :: ms, .cons hb hbs =>
    refine ⟨{ s with outer := bs ++ base, cur := b }, ?_, ?_⟩
    · show some (if s.cur.closable then _ else s) = _
      have : s.cur.closable = true := by
        have := h3
        simp only [List.map_cons, List.length_cons, List.replicate_succ, List.cons_append, List.cons.injEq] at this
        exact this.1
      rw [this, if_pos rfl, h1]
      rfl
    · have e : sp.step .pop = ⟨m, ms⟩ := by unfold Spec.step; rw [hspo]
      rw [e]
      refine ⟨h.cam, h.world, hb.1, hb.2, bs, rfl, hbs, ?_⟩
      simp only [List.map_cons, List.length_cons, List.replicate_succ, List.cons_append, List.cons.injEq] at h3
      rw [List.map_cons]
      exact h3.2

/-- All requests of the specification. -/
theorem acts {neg : G → Bool} (hn : Sign neg) {ch : Bool} {ts : List ℚ} (ht : ts ≠ []) (hp : ts.Pairwise (· < ·))
    {base : List (Blk G)} (as : List (Act G)) : ∀ {s : St G} {sp : Spec G}, RelS neg ch ts base s sp → sp.Ok ts.length as →
    ∃ s', run neg s (as.flatMap (Act.reqs ts)) = some s' ∧ RelS neg ch ts base s' (sp.run as) := by
  induction as with
  | nil => intro s sp h _; exact ⟨s, rfl, h⟩
  | cons a as ih =>
    intro s sp h hok
    obtain ⟨h1, h2⟩ := hok
    have : ∃ s', run neg s (a.reqs ts) = some s' ∧ RelS neg ch ts base s' (sp.step a) := by
      cases a with
      | change c =>
        obtain ⟨s', q1, q2⟩ := act_change hn h c (by
          intro hc
          cases c with
          | concat m => exact absurd rfl (hc m)
          | identity => exact h1
          | transform m => exact h1)
        refine ⟨s', ?_, q2⟩
        show run neg s [c.toReq] = _
        rw [run, q1]; rfl
      | motion cs => exact act_motion hn ht hp h cs h1
      | push =>
        obtain ⟨s', q1, q2⟩ := act_push h
        exact ⟨s', by show run neg s [.push] = _; rw [run, q1]; rfl, q2⟩
      | pop =>
        obtain ⟨s', q1, q2⟩ := act_pop h
        exact ⟨s', by show run neg s [.pop] = _; rw [run, q1]; rfl, q2⟩
    obtain ⟨s', q1, q2⟩ := this
    obtain ⟨s'', q3, q4⟩ := ih q2 h2
    refine ⟨s'', ?_, q4⟩
    rw [List.flatMap_cons, run_append, q1, Option.bind_some, q3]

/-! ## The camera stays -/

theorem advance_camera {s s' : St G} (h : s.advance = some s') : s'.camera = s.camera := by
  unfold St.advance at h
  cases hm : s.cur.motion with
  | none => rw [hm] at h; cases h; rfl
  | some mo =>
    rw [hm] at h
    simp only at h
    split_ifs at h
    cases h; rfl

theorem setTime_camera {neg : G → Bool} {s s' : St G} {m : G} (h : s.setTime neg m = some s') : s'.camera = s.camera := by
  unfold St.setTime at h
  obtain ⟨c, _, rfl⟩ := Option.map_eq_some_iff.1 h
  rfl

theorem step_camera {neg : G → Bool} {s s' : St G} {r : Req G} (hr : r ≠ .worldBegin) (h : step neg s r = some s') :
    s'.camera = s.camera := by
  cases r with
  | identity =>
    obtain ⟨a, h1, h2⟩ := Option.bind_eq_some_iff.1 h
    rw [advance_camera h2, setTime_camera h1]
  | transform m =>
    by_cases hw : s.world
    · have h' : (s.setTime neg 1).bind (fun a => (a.concatTime neg m).advance) = some s' := by
        rw [← h]; show _ = ite _ _ _; rw [if_pos hw]; rfl
      obtain ⟨a, h1, h2⟩ := Option.bind_eq_some_iff.1 h'
      rw [advance_camera h2]
      show a.camera = _
      exact setTime_camera h1
    · have h' : (s.setTime neg m).bind (fun a => a.advance) = some s' := by
        rw [← h]; show _ = ite _ _ _; rw [if_neg hw]; rfl
      obtain ⟨a, h1, h2⟩ := Option.bind_eq_some_iff.1 h'
      rw [advance_camera h2]
      exact setTime_camera h1
  | concat m => exact advance_camera (s := s.concatTime neg m) h
  | coordSys m =>
    have h' : (if s.world then ((s.setCurrentTime neg 1).concatTime neg m).advance else (s.setCurrentTime neg m).advance)
        = some s' := h
    by_cases hw : s.world
    · rw [if_pos hw] at h'; rw [advance_camera h']; rfl
    · rw [if_neg hw] at h'; rw [advance_camera h']; rfl
  | push =>
    have h' : s' = if s.inMotion then s else { s with outer := s.cur :: s.outer, cur := ⟨none, true, s.cur.trans⟩ } := by
      cases h; rfl
    rw [h']; split_ifs <;> rfl
  | pop =>
    unfold step at h
    cases ho : s.outer with
    | nil => rw [ho] at h; cases h; split_ifs <;> rfl
    | cons b bs => rw [ho] at h; cases h; split_ifs <;> rfl
  | motionBegin ts =>
    have h' : (if s.inMotion then some s else (s.cur.trans.at (timeAt s.cur.trans.keys 0)).bind fun o =>
        some { s with outer := s.cur :: s.outer, cur := ⟨some ⟨ts, 0⟩, false, { s.cur.trans with dflt := o }⟩ }) = some s' := h
    split_ifs at h'
    · cases h'; rfl
    · obtain ⟨o, _, h2⟩ := Option.bind_eq_some_iff.1 h'
      cases h2; rfl
  | motionEnd =>
    unfold step at h
    cases ho : s.outer with
    | nil => rw [ho] at h; cases h; split_ifs <;> rfl
    | cons b bs => rw [ho] at h; cases h; split_ifs <;> rfl
  | worldBegin => exact absurd rfl hr

theorem run_camera (neg : G → Bool) (rs : List (Req G)) (hr : ∀ r ∈ rs, r ≠ .worldBegin) : ∀ s s', run neg s rs = some s' →
    s'.camera = s.camera := by
  induction rs with
  | nil => intro s s' h; cases h; rfl
  | cons r rs ih =>
    intro s s' h
    obtain ⟨a, h1, h2⟩ := Option.bind_eq_some_iff.1 h
    rw [ih (fun r hr' => hr r (by simp [hr'])) a s' h2, step_camera (hr r (by simp)) h1]

omit [Group G] in
theorem acts_noWorld (ts : List ℚ) (as : List (Act G)) : ∀ r ∈ as.flatMap (Act.reqs ts), r ≠ .worldBegin := by
  intro r hr
  obtain ⟨a, _, h⟩ := List.mem_flatMap.1 hr
  cases a with
  | change c =>
    have : r = c.toReq := by simpa [Act.reqs] using h
    rw [this]; cases c <;> simp [Change.toReq]
  | motion cs =>
    simp only [Act.reqs, List.cons_append, List.mem_cons, List.mem_append, List.mem_map, List.not_mem_nil, or_false] at h
    rcases h with rfl | ⟨c, _, rfl⟩ | rfl
    · simp
    · cases c <;> simp [Change.toReq]
    · simp
  | push => have : r = .push := by simpa [Act.reqs] using h
            rw [this]; simp
  | pop => have : r = .pop := by simpa [Act.reqs] using h
           rw [this]; simp

end Verif.State.Transform
