import Verif.Core.Csg
import Mathlib.Data.List.Nodup
import Mathlib.Tactic.Tauto

/-!
# C30: CSG keeps exactly the surfaces where the Boolean combination changes
-/

namespace Verif.Core.Csg

/-! ## Specification -/

/-- The Boolean operation of a node. -/
def combine : Kind → List Bool → Bool
  | .union, ss => ss.any (fun s => s)
  | .inter, ss => ss.all (fun s => s)
  | .diff, [] => false
  | .diff, s :: ss => s && !(ss.any (fun s => s))

mutual
/-- Inside or outside of the solid, from inside or outside of each primitive. -/
def eval (σ : Nat → Bool) : Node → Bool
  | .prim i => σ i
  | .gone => false
  | .op _ k cs => combine k (evals σ cs)
def evals (σ : Nat → Bool) : List Node → List Bool
  | [] => []
  | c :: cs => eval σ c :: evals σ cs
end

mutual
/-- The primitives of a tree. -/
def prims : Node → List Nat
  | .prim i => [i]
  | .gone => []
  | .op _ _ cs => primsL cs
def primsL : List Node → List Nat
  | [] => []
  | c :: cs => prims c ++ primsL cs
end

mutual
/-- The operations of a tree. -/
def ops : Node → List Nat
  | .prim _ => []
  | .gone => []
  | .op i _ cs => i :: opsL cs
def opsL : List Node → List Nat
  | [] => []
  | c :: cs => ops c ++ opsL cs
end

mutual
/-- Every operation has a child. -/
def NonEmpty : Node → Prop
  | .prim _ => True
  | .gone => True
  | .op _ _ cs => cs ≠ [] ∧ NonEmptyL cs
def NonEmptyL : List Node → Prop
  | [] => True
  | c :: cs => NonEmpty c ∧ NonEmptyL cs
end

/-- Crossing a surface of primitive `i`. -/
def cross (σ : Nat → Bool) (i : Nat) : Nat → Bool := fun j => if j = i then !σ j else σ j

/-- The hits kept: those of other trees, and those where the solid is entered or
left. -/
def keep {β : Type} (T : Node) (out : Option Nat) : (Nat → Bool) → List (Hit β) → List (Hit β)
  | _, [] => []
  | σ, h :: hs =>
    match h.node with
    | none => h :: keep T out σ hs
    | some i =>
      if i ∈ prims T then
        if eval (cross σ i) T = eval σ T then keep T out (cross σ i) hs
        else { h with node := out } :: keep T out (cross σ i) hs
      else h :: keep T out σ hs

/-! ## Proof -/

theorem evals_eq (σ : Nat → Bool) (cs : List Node) : evals σ cs = cs.map (eval σ) := by
  induction cs with
  | nil => rfl
  | cons c cs ih => simp [evals, ih]

theorem mem_primsL {i : Nat} {cs : List Node} : i ∈ primsL cs ↔ ∃ c ∈ cs, i ∈ prims c := by
  induction cs with
  | nil => simp [primsL]
  | cons c cs ih => simp [primsL, ih]

theorem mem_opsL {i : Nat} {cs : List Node} : i ∈ opsL cs ↔ ∃ c ∈ cs, i ∈ ops c := by
  induction cs with
  | nil => simp [opsL]
  | cons c cs ih => simp [opsL, ih]

theorem nonEmptyL {cs : List Node} : NonEmptyL cs ↔ ∀ c ∈ cs, NonEmpty c := by
  induction cs with
  | nil => simp [NonEmptyL]
  | cons c cs ih => simp [NonEmptyL, ih]

mutual
theorem eval_congr (σ τ : Nat → Bool) : ∀ T : Node, (∀ i ∈ prims T, σ i = τ i) →
    eval σ T = eval τ T
  | .prim i, h => by simp only [eval]; exact h i (by simp [prims])
  | .gone, _ => rfl
  | .op _ k cs, h => by
    simp only [eval]
    rw [evals_congr σ τ cs (by simpa [prims] using h)]
theorem evals_congr (σ τ : Nat → Bool) : ∀ cs : List Node, (∀ i ∈ primsL cs, σ i = τ i) →
    evals σ cs = evals τ cs
  | [], _ => rfl
  | c :: cs, h => by
    simp only [evals]
    rw [eval_congr σ τ c (fun i hi => h i (by simp [primsL, hi])),
      evals_congr σ τ cs (fun i hi => h i (by simp [primsL, hi]))]
end

theorem eval_cross_not_mem {σ : Nat → Bool} {T : Node} {i : Nat} (h : i ∉ prims T) :
    eval (cross σ i) T = eval σ T := by
  apply eval_congr
  intro j hj
  have : j ≠ i := fun e => h (e ▸ hj)
  simp [cross, this]

theorem combine_eq {k : Kind} {ss : List Bool} (h : ss ≠ []) :
    evaluateState k ss = some (combine k ss) := by
  cases k with
  | union => rfl
  | inter => rfl
  | diff =>
    cases ss with
    | nil => exact absurd rfl h
    | cons s ss => cases s <;> simp [evaluateState, combine]

mutual
theorem eval_false : ∀ T : Node, NonEmpty T → eval (fun _ => false) T = false
  | .prim _, _ => rfl
  | .gone, _ => rfl
  | .op _ k cs, h => by
    simp only [NonEmpty] at h
    have e := evals_false cs h.2
    simp only [eval, e]
    cases cs with
    | nil => exact absurd rfl h.1
    | cons c cs => cases k <;> simp [combine]
theorem evals_false : ∀ cs : List Node, NonEmptyL cs →
    evals (fun _ => false) cs = cs.map fun _ => false
  | [], _ => rfl
  | c :: cs, h => by
    simp only [NonEmptyL] at h
    simp only [evals, List.map_cons, eval_false c h.1, evals_false cs h.2]
end

/-- The `camera inside' test never succeeds. -/
theorem initial_eq (cs : List Node) (is : List (Option Nat)) (ss : List Bool) :
    initial cs is ss = ss := by
  induction is with
  | nil => rfl
  | cons o is ih =>
    cases o with
    | none => exact ih
    | some j =>
      have : (isPrim cs j && isUnion cs j) = false := by
        unfold isPrim isUnion
        cases cs[j]? with
        | none => rfl
        | some c => cases c <;> rfl
      simp [initial, this, ih]

/-- The children processed one after the other. -/
def keepChild {β : Type} (c : Node) (hs : List (Hit β)) : List (Hit β) :=
  match c with
  | .op i _ _ => keep c (some i) (fun _ => false) hs
  | _ => hs

/-- The children processed at once. -/
def keepAll {β : Type} (cs : List Node) : (Nat → Bool) → List (Hit β) → List (Hit β)
  | _, [] => []
  | σ, h :: hs =>
    match h.node with
    | none => h :: keepAll cs σ hs
    | some i =>
      match cs.find? (fun c => i ∈ prims c) with
      | some (.op o k cc) =>
        if eval (cross σ i) (.op o k cc) = eval σ (.op o k cc) then keepAll cs (cross σ i) hs
        else { h with node := some o } :: keepAll cs (cross σ i) hs
      | _ => h :: keepAll cs (cross σ i) hs

theorem keepAll_congr {β : Type} (cs : List Node) (hs : List (Hit β)) : ∀ (σ τ : Nat → Bool),
    (∀ i ∈ primsL cs, σ i = τ i) → keepAll cs σ hs = keepAll cs τ hs := by
  induction hs with
  | nil => intros; rfl
  | cons h hs ih =>
    intro σ τ hστ
    unfold keepAll
    cases hn : h.node with
    | none => simp only; rw [ih σ τ hστ]
    | some i =>
      have hc : ∀ j ∈ primsL cs, cross σ i j = cross τ i j := by
        intro j hj; simp [cross, hστ j hj]
      simp only
      cases hf : cs.find? (fun c => i ∈ prims c) with
      | none => simp only; rw [ih _ _ hc]
      | some c =>
        have hmem := List.mem_of_find?_eq_some hf
        have e1 : eval σ c = eval τ c :=
          eval_congr _ _ c (fun j hj => hστ j (mem_primsL.mpr ⟨c, hmem, hj⟩))
        have e2 : eval (cross σ i) c = eval (cross τ i) c :=
          eval_congr _ _ c (fun j hj => hc j (mem_primsL.mpr ⟨c, hmem, hj⟩))
        cases c with
        | prim _ => simp only; rw [ih _ _ hc]
        | gone => simp only; rw [ih _ _ hc]
        | op o k cc => simp only; rw [e1, e2, ih _ _ hc]

theorem keep_congr {β : Type} (T : Node) (out : Option Nat) (hs : List (Hit β)) :
    ∀ (σ τ : Nat → Bool), (∀ i ∈ prims T, σ i = τ i) → keep T out σ hs = keep T out τ hs := by
  induction hs with
  | nil => intros; rfl
  | cons h hs ih =>
    intro σ τ hστ
    unfold keep
    cases hn : h.node with
    | none => simp only; rw [ih σ τ hστ]
    | some i =>
      have hc : ∀ j ∈ prims T, cross σ i j = cross τ i j := by
        intro j hj; simp [cross, hστ j hj]
      simp only
      rw [eval_congr _ _ T hστ, eval_congr _ _ T hc, ih _ _ hc, ih _ _ hστ]

/-- One more child. -/
theorem keepAll_cons {β : Type} (o : Nat) (k : Kind) (cc cs : List Node)
    (hdis : ∀ i ∈ primsL cc, i ∉ primsL cs) (ho : o ∉ primsL cs) (hs : List (Hit β)) :
    ∀ σ, keepAll (.op o k cc :: cs) σ hs = keepAll cs σ (keep (.op o k cc) (some o) σ hs) := by
  induction hs with
  | nil => intros; rfl
  | cons h hs ih =>
    intro σ
    unfold keep
    cases hn : h.node with
    | none =>
      simp only
      conv_lhs => unfold keepAll
      conv_rhs => unfold keepAll
      simp only [hn, ih]
    | some i =>
      simp only
      by_cases hi : i ∈ prims (.op o k cc)
      · have hi' : i ∉ primsL cs := hdis i (by simpa [prims] using hi)
        have hcr : ∀ l : List (Hit β), keepAll cs (cross σ i) l = keepAll cs σ l := by
          intro l
          apply keepAll_congr
          intro j hj
          have : j ≠ i := fun e => hi' (e ▸ hj)
          simp [cross, this]
        rw [if_pos hi]
        conv_lhs => unfold keepAll
        simp only [hn, List.find?_cons, hi, decide_true]
        by_cases he : eval (cross σ i) (.op o k cc) = eval σ (.op o k cc)
        · rw [if_pos he, if_pos he, ih, hcr]
        · rw [if_neg he, if_neg he]
          conv_rhs => unfold keepAll
          simp only
          have hnone : cs.find? (fun c => o ∈ prims c) = none := by
            rw [List.find?_eq_none]
            intro c hc h
            exact ho (mem_primsL.mpr ⟨c, hc, by simpa using h⟩)
          rw [hnone]
          simp only
          rw [ih, hcr]
          congr 1
          apply keepAll_congr
          intro j hj
          have : j ≠ o := fun e => ho (e ▸ hj)
          simp [cross, this]
      · rw [if_neg hi]
        conv_lhs => unfold keepAll
        conv_rhs => unfold keepAll
        simp only [hn, List.find?_cons, hi, decide_false]
        have hkc : ∀ l : List (Hit β), keep (.op o k cc) (some o) (cross σ i) l =
            keep (.op o k cc) (some o) σ l := by
          intro l
          apply keep_congr
          intro j hj
          have : j ≠ i := fun e => hi (e ▸ hj)
          simp [cross, this]
        cases hf : cs.find? (fun c => i ∈ prims c) with
        | none => simp only; rw [ih, hkc]
        | some c =>
          cases c with
          | prim _ => simp only; rw [ih, hkc]
          | gone => simp only; rw [ih, hkc]
          | op o' k' cc' => simp only; rw [ih, hkc]

theorem keepAll_cons_other {β : Type} (c : Node) (cs : List Node)
    (hdis : ∀ i ∈ prims c, i ∉ primsL cs) (hc : ∀ o k cc, c ≠ .op o k cc) (hs : List (Hit β)) :
    ∀ σ, keepAll (c :: cs) σ hs = keepAll cs σ hs := by
  induction hs with
  | nil => intros; rfl
  | cons h hs ih =>
    intro σ
    unfold keepAll
    cases hn : h.node with
    | none => simp only [ih]
    | some i =>
      simp only [List.find?_cons]
      by_cases hi : i ∈ prims c
      · have hnone : cs.find? (fun c => i ∈ prims c) = none := by
          rw [List.find?_eq_none]
          intro c' hc' h
          exact hdis i hi (mem_primsL.mpr ⟨c', hc', by simpa using h⟩)
        simp only [hi, decide_true, hnone]
        cases c with
        | op o k cc => exact absurd rfl (hc o k cc)
        | prim _ => simp only [ih]
        | gone => simp only [ih]
      · simp only [hi, decide_false, ih]

theorem keepAll_nil {β : Type} (hs : List (Hit β)) : ∀ σ, keepAll [] σ hs = hs := by
  induction hs with
  | nil => intros; rfl
  | cons h hs ih =>
    intro σ
    unfold keepAll
    cases hn : h.node with
    | none => simp only [ih]
    | some i => simp only [List.find?_nil, ih]

theorem primsL_append (as bs : List Node) : primsL (as ++ bs) = primsL as ++ primsL bs := by
  induction as with
  | nil => rfl
  | cons a as ih => simp [primsL, ih]

theorem opsL_append (as bs : List Node) : opsL (as ++ bs) = opsL as ++ opsL bs := by
  induction as with
  | nil => rfl
  | cons a as ih => simp [opsL, ih]

/-- The nodes of a list of trees are all different. -/
def Distinct (cs : List Node) : Prop := (primsL cs ++ opsL cs).Nodup

theorem distinct_split {as bs : List Node} {c : Node} (h : Distinct (as ++ c :: bs)) {x : Nat}
    (hx : x ∈ prims c ∨ x ∈ ops c) : ∀ a, a ∈ as ∨ a ∈ bs → x ∉ prims a ∧ x ∉ ops a := by
  unfold Distinct at h
  rw [primsL_append, opsL_append, primsL, opsL] at h
  simp only [List.nodup_append, List.mem_append] at h
  obtain ⟨⟨_, ⟨_, _, p1⟩, p2⟩, ⟨_, ⟨_, _, o1⟩, o2⟩, po⟩ := h
  intro a ha
  constructor
  · intro hp
    rcases ha with ha | ha
    · have hm : x ∈ primsL as := mem_primsL.mpr ⟨a, ha, hp⟩
      rcases hx with hx | hx
      · exact p2 x hm x (Or.inl hx) rfl
      · exact po x (Or.inl hm) x (Or.inr (Or.inl hx)) rfl
    · have hm : x ∈ primsL bs := mem_primsL.mpr ⟨a, ha, hp⟩
      rcases hx with hx | hx
      · exact p1 x hx x hm rfl
      · exact po x (Or.inr (Or.inr hm)) x (Or.inr (Or.inl hx)) rfl
  · intro hp
    rcases ha with ha | ha
    · have hm : x ∈ opsL as := mem_opsL.mpr ⟨a, ha, hp⟩
      rcases hx with hx | hx
      · exact po x (Or.inr (Or.inl hx)) x (Or.inl hm) rfl
      · exact o2 x hm x (Or.inl hx) rfl
    · have hm : x ∈ opsL bs := mem_opsL.mpr ⟨a, ha, hp⟩
      rcases hx with hx | hx
      · exact po x (Or.inr (Or.inl hx)) x (Or.inr (Or.inr hm)) rfl
      · exact o1 x hx x hm rfl

theorem id_mem {c : Node} {x : Nat} (h : c.id? = some x) : x ∈ prims c ∨ x ∈ ops c := by
  cases c <;> simp [Node.id?, prims, ops] at h ⊢
  · exact h.symm
  · exact Or.inr (Or.inl h.symm)

theorem isChild_split {as bs : List Node} {c : Node} (h : Distinct (as ++ c :: bs)) {x : Nat}
    (hx : c.id? = some x) : isChild (as ++ c :: bs) (some x) = some as.length := by
  simp only [isChild]
  rw [List.findIdx?_append]
  have : as.findIdx? (fun c => c.id? == some x) = none := by
    rw [List.findIdx?_eq_none_iff]
    intro a ha
    simp only [beq_eq_false_iff_ne]
    intro e
    have := distinct_split h (id_mem hx) a (Or.inl ha)
    rcases id_mem e with h1 | h1
    · exact this.1 h1
    · exact this.2 h1
  rw [this]
  simp [List.findIdx?_cons, hx]

theorem flip_split (as bs : List Bool) (c : Bool) :
    flip (as ++ c :: bs) as.length = as ++ (!c) :: bs := by
  unfold flip
  induction as with
  | nil => rfl
  | cons a as ih => simp only [List.cons_append, List.length_cons, List.modify_succ_cons, ih]

/-- The pass over the samples. -/
theorem sweep_spec {β : Type} (o : Nat) (k : Kind) (cs : List Node) (out : Option Nat)
    (hd : Distinct cs) (hne : cs ≠ []) (hs : List (Hit β))
    (hh : ∀ h ∈ hs, ∀ i, h.node = some i → i ∉ opsL cs) : ∀ σ,
    sweep k out ((keepAll cs σ hs).zip ((keepAll cs σ hs).map fun h => isChild cs h.node))
      (cs.map (eval σ)) (combine k (cs.map (eval σ))) = some (keep (.op o k cs) out σ hs) := by
  have hev : ∀ σ, eval σ (.op o k cs) = combine k (cs.map (eval σ)) := by
    intro σ; simp only [eval, evals_eq]
  induction hs with
  | nil => intro σ; rfl
  | cons h hs ih =>
    have ih := ih (fun h' hm => hh h' (by simp [hm]))
    intro σ
    unfold keepAll keep
    cases hn : h.node with
    | none =>
      simp only [List.map_cons, List.zip_cons_cons, hn, isChild, sweep]
      have := ih σ
      simp only [isChild] at this
      rw [this]
      rfl
    | some i =>
      simp only
      by_cases hi : i ∈ prims (.op o k cs)
      · rw [if_pos hi]
        -- the child
        have hi' : i ∈ primsL cs := by simpa [prims] using hi
        obtain ⟨c0, hc0, hic0⟩ := mem_primsL.mp hi'
        have hsome : (cs.find? (fun c => decide (i ∈ prims c))).isSome := by
          rw [List.find?_isSome]; exact ⟨c0, hc0, by simpa using hic0⟩
        obtain ⟨c, hf⟩ := Option.isSome_iff_exists.mp hsome
        rw [List.find?_eq_some_iff_append] at hf
        obtain ⟨hic, as, bs, hcs, has⟩ := hf
        have hic : i ∈ prims c := by simpa using hic
        have hfind : cs.find? (fun c => decide (i ∈ prims c)) = some c := by
          rw [List.find?_eq_some_iff_append]
          exact ⟨by simpa using hic, as, bs, hcs, has⟩
        have hd' : Distinct (as ++ c :: bs) := hcs ▸ hd
        have hmap : cs.map (eval (cross σ i)) =
            as.map (eval σ) ++ eval (cross σ i) c :: bs.map (eval σ) := by
          rw [hcs, List.map_append, List.map_cons]
          congr 1
          · apply List.map_congr_left
            intro a ha
            exact eval_cross_not_mem (distinct_split hd' (Or.inl hic) a (Or.inl ha)).1
          · congr 1
            apply List.map_congr_left
            intro a ha
            exact eval_cross_not_mem (distinct_split hd' (Or.inl hic) a (Or.inr ha)).1
        have hmap0 : cs.map (eval σ) = as.map (eval σ) ++ eval σ c :: bs.map (eval σ) := by
          rw [hcs, List.map_append, List.map_cons]
        have hne' : cs.map (eval (cross σ i)) ≠ [] := by simp [hne]
        -- a sample of the child is seen
        have seen : ∀ (h' : Hit β) (x : Nat), h'.node = some x → c.id? = some x →
            eval (cross σ i) c = !eval σ c →
            sweep k out ((h' :: keepAll cs (cross σ i) hs).zip
              ((h' :: keepAll cs (cross σ i) hs).map fun h => isChild cs h.node))
              (cs.map (eval σ)) (combine k (cs.map (eval σ))) =
            some (if eval (cross σ i) (.op o k cs) = eval σ (.op o k cs) then
                keep (.op o k cs) out (cross σ i) hs
              else { h' with node := out } :: keep (.op o k cs) out (cross σ i) hs) := by
          intro h' x hx hid htog
          have hidx : isChild cs h'.node = some as.length := by
            rw [hx, hcs]; exact isChild_split hd' hid
          have hflip : flip (cs.map (eval σ)) as.length = cs.map (eval (cross σ i)) := by
            rw [hmap, hmap0, htog]
            have := flip_split (as.map (eval σ)) (bs.map (eval σ)) (eval σ c)
            rw [List.length_map] at this
            exact this
          simp only [List.map_cons, List.zip_cons_cons, hidx, sweep, hflip, combine_eq hne']
          rw [hev, hev]
          by_cases he : combine k (cs.map (eval (cross σ i))) = combine k (cs.map (eval σ))
          · rw [if_pos he, if_pos (by simpa using he), ← he]
            exact ih (cross σ i)
          · rw [if_neg he, if_neg (by simpa using he), ih (cross σ i)]
            rfl
        rw [hfind]
        cases c with
        | gone => simp [prims] at hic
        | prim p =>
          have hp : i = p := by simpa [prims] using hic
          simp only
          rw [seen h i hn (by simp [Node.id?, hp]) (by simp [eval, cross, hp])]
        | op o' k' cc =>
          simp only
          by_cases he : eval (cross σ i) (.op o' k' cc) = eval σ (.op o' k' cc)
          · rw [if_pos he]
            have hst : cs.map (eval (cross σ i)) = cs.map (eval σ) := by rw [hmap, hmap0, he]
            rw [if_pos (by rw [hev, hev, hst]), ← hst]
            exact ih (cross σ i)
          · rw [if_neg he, seen { h with node := some o' } o' rfl rfl
              (by revert he; cases eval (cross σ i) (.op o' k' cc) <;>
                  cases eval σ (.op o' k' cc) <;> simp)]
      · rw [if_neg hi]
        have hi' : i ∉ primsL cs := by simpa [prims] using hi
        have hnone : cs.find? (fun c => i ∈ prims c) = none := by
          rw [List.find?_eq_none]
          intro c hc h
          exact hi' (mem_primsL.mpr ⟨c, hc, by simpa using h⟩)
        have hidx : isChild cs h.node = none := by
          rw [hn]
          unfold isChild
          rw [List.findIdx?_eq_none_iff]
          intro c hc
          simp only [beq_eq_false_iff_ne]
          intro e
          rcases id_mem e with h1 | h1
          · exact hi' (mem_primsL.mpr ⟨c, hc, h1⟩)
          · exact hh h (by simp) i hn (mem_opsL.mpr ⟨c, hc, h1⟩)
        rw [hnone]
        simp only [List.map_cons, List.zip_cons_cons, hidx, sweep]
        have hcr : keepAll cs (cross σ i) hs = keepAll cs σ hs := by
          apply keepAll_congr
          intro j hj
          have : j ≠ i := fun e => hi' (e ▸ hj)
          simp [cross, this]
        rw [hcr, ih σ]
        rfl

/-- Where the nodes of kept samples come from. -/
theorem keep_nodes {β : Type} (T : Node) (out : Option Nat) (hs : List (Hit β)) :
    ∀ (σ : Nat → Bool) (h), h ∈ keep T out σ hs →
      h.node = out ∨ ∃ h' ∈ hs, h'.node = h.node := by
  induction hs with
  | nil => intro σ h hm; simp [keep] at hm
  | cons a hs ih =>
    intro σ h hm
    have lift : (h.node = out ∨ ∃ h' ∈ hs, h'.node = h.node) →
        (h.node = out ∨ ∃ h' ∈ a :: hs, h'.node = h.node) := by
      rintro (h1 | ⟨h', h1, h2⟩)
      · exact Or.inl h1
      · exact Or.inr ⟨h', by simp [h1], h2⟩
    have plain : ∀ τ, h ∈ a :: keep T out τ hs →
        (h.node = out ∨ ∃ h' ∈ a :: hs, h'.node = h.node) := by
      intro τ hm
      rcases List.mem_cons.mp hm with rfl | hm
      · exact Or.inr ⟨h, by simp, rfl⟩
      · exact lift (ih _ h hm)
    unfold keep at hm
    cases hn : a.node with
    | none => simp only [hn] at hm; exact plain _ hm
    | some i =>
      simp only [hn] at hm
      by_cases hi : i ∈ prims T
      · rw [if_pos hi] at hm
        by_cases he : eval (cross σ i) T = eval σ T
        · rw [if_pos he] at hm; exact lift (ih _ h hm)
        · rw [if_neg he] at hm
          rcases List.mem_cons.mp hm with rfl | hm
          · exact Or.inl rfl
          · exact lift (ih _ h hm)
      · rw [if_neg hi] at hm; exact plain _ hm

mutual
theorem process_op {β : Type} : ∀ (T : Node) (o : Nat) (k : Kind) (cs : List Node),
    T = .op o k cs → NonEmpty T → (prims T ++ ops T).Nodup → ∀ (hp : Bool) (hs : List (Hit β)),
    (∀ h ∈ hs, ∀ i, h.node = some i → i ∉ ops T) →
    process T hp hs = some (keep T (if hp then some o else none) (fun _ => false) hs)
  | .prim _, _, _, _, h, _, _, _, _, _ => by cases h
  | .gone, _, _, _, h, _, _, _, _, _ => by cases h
  | .op o k cs, o', k', cs', he, hne, hnd, hp, hs, hh => by
    cases he
    simp only [NonEmpty] at hne
    have hd : Distinct cs := by
      unfold Distinct
      simp only [prims, ops] at hnd
      exact hnd.sublist (List.Sublist.append (List.Sublist.refl _) (List.sublist_cons_self _ _))
    have hh' : ∀ h ∈ hs, ∀ i, h.node = some i → i ∉ opsL cs := by
      intro h hm i hi hmem
      exact hh h hm i hi (by simp [ops, hmem])
    simp only [process]
    rw [process_children cs hne.2 hd hs hh']
    simp only [initial_eq]
    rw [← evals_false cs hne.2, evals_eq, combine_eq (by simp [hne.1])]
    exact sweep_spec o k cs _ hd hne.1 hs hh' _
theorem process_children {β : Type} : ∀ (cs : List Node), NonEmptyL cs → Distinct cs →
    ∀ (hs : List (Hit β)), (∀ h ∈ hs, ∀ i, h.node = some i → i ∉ opsL cs) →
    processChildren cs hs = some (keepAll cs (fun _ => false) hs)
  | [], _, _, hs, _ => by simp only [processChildren, keepAll_nil]
  | c :: cs, hne, hd, hs, hh => by
    simp only [NonEmptyL] at hne
    have hsplit := fun {x : Nat} => distinct_split (as := []) (c := c) (bs := cs) hd (x := x)
    have hdc : (prims c ++ ops c).Nodup := by
      unfold Distinct at hd
      simp only [primsL, opsL] at hd
      exact hd.sublist (List.Sublist.append (List.sublist_append_left _ _)
        (List.sublist_append_left _ _))
    have hdcs : Distinct cs := by
      unfold Distinct at hd ⊢
      simp only [primsL, opsL] at hd
      exact hd.sublist (List.Sublist.append (List.sublist_append_right _ _)
        (List.sublist_append_right _ _))
    have hhcs : ∀ h ∈ hs, ∀ i, h.node = some i → i ∉ opsL cs := by
      intro h hm i hi hmem
      exact hh h hm i hi (by simp [opsL, hmem])
    have hdis : ∀ i ∈ prims c, i ∉ primsL cs := by
      intro i hi hm
      obtain ⟨a, ha, hia⟩ := mem_primsL.mp hm
      exact (hsplit (Or.inl hi) a (Or.inr ha)).1 hia
    cases c with
    | prim p =>
      simp only [processChildren]
      rw [process_children cs hne.2 hdcs hs hhcs, keepAll_cons_other _ _ hdis (by intros; simp)]
    | gone =>
      simp only [processChildren]
      rw [process_children cs hne.2 hdcs hs hhcs, keepAll_cons_other _ _ hdis (by intros; simp)]
    | op o k cc =>
      simp only [processChildren]
      rw [process_op (.op o k cc) o k cc rfl hne.1 hdc true hs
        (by intro h hm i hi hmem; exact hh h hm i hi (by simp [opsL, hmem]))]
      simp only [if_true]
      have ho : o ∉ primsL cs := by
        intro hm
        obtain ⟨a, ha, hia⟩ := mem_primsL.mp hm
        exact (hsplit (Or.inr (by simp [ops])) a (Or.inr ha)).1 hia
      have ho' : o ∉ opsL cs := by
        intro hm
        obtain ⟨a, ha, hia⟩ := mem_opsL.mp hm
        exact (hsplit (Or.inr (by simp [ops])) a (Or.inr ha)).2 hia
      rw [keepAll_cons o k cc cs (fun i hi => hdis i (by simpa [prims] using hi)) ho]
      apply process_children cs hne.2 hdcs
      intro h hm i hi
      rcases keep_nodes _ _ _ _ _ hm with h1 | ⟨h', h1, h2⟩
      · rw [hi] at h1
        cases h1
        exact ho'
      · exact hhcs h' h1 i (by rw [h2, hi])
end

/-! ## The property -/

/-- The camera is inside a closed solid exactly when an odd number of its walls
is seen. -/
def startInside {β : Type} (hs : List (Hit β)) (i : Nat) : Bool :=
  hs.countP (fun h => h.node == some i) % 2 == 1

/-- Spec: what processing the hits of a ray should leave, for a tree of closed
solids. -/
def correct {β : Type} (T : Node) (hs : List (Hit β)) : List (Hit β) :=
  keep T none (startInside hs) hs

/-- **C30, partial.**  For every tree of distinct nodes in which each operation
has a child, and every list of hits on its primitives (and on anything else):
the hits left are exactly those at which the Boolean combination of the
primitives changes, counting from outside every primitive.  Missing: rays that
start inside a primitive, see `C30_violated`. -/
theorem C30_partial {β : Type} (T : Node) (hs : List (Hit β)) (hne : NonEmpty T)
    (hnd : (prims T ++ ops T).Nodup) (hh : ∀ h ∈ hs, ∀ i, h.node = some i → i ∉ ops T)
    (hout : ∀ i ∈ prims T, startInside hs i = false) :
    process T false hs = some (correct T hs) := by
  have hk : correct T hs = keep T none (fun _ => false) hs := keep_congr _ _ _ _ _ hout
  rw [hk]
  cases T with
  | op o k cs => exact process_op _ o k cs rfl hne hnd false hs hh
  | gone =>
    simp only [process]
    congr 1
    have : ∀ (l : List (Hit β)) σ, keep .gone none σ l = l := by
      intro l
      induction l with
      | nil => intro σ; rfl
      | cons a l ih =>
        intro σ
        unfold keep
        cases hn : a.node with
        | none => simp only [ih]
        | some i => simp [prims, ih]
    rw [this]
  | prim p =>
    simp only [process]
    congr 1
    have : ∀ (l : List (Hit β)) σ, keep (.prim p) none σ l =
        l.map fun h => if h.node = some p then { h with node := none } else h := by
      intro l
      induction l with
      | nil => intro σ; rfl
      | cons a l ih =>
        intro σ
        unfold keep
        cases hn : a.node with
        | none => simp only [ih, List.map_cons, hn, reduceCtorEq, if_false]
        | some i =>
          by_cases hi : i = p
          · subst hi
            simp [prims, eval, cross, ih, hn]
          · simp [prims, hi, ih, hn]
    rw [this]

/-- The difference of two solids, one behind the other: the front of the first
and the front of the second are kept. -/
example : process (.op 0 .diff [.prim 1, .prim 2]) false
    [⟨"a front", some 1⟩, ⟨"b front", some 2⟩, ⟨"a back", some 1⟩, ⟨"b back", some 2⟩] =
      some [⟨"a front", none⟩, ⟨"b front", none⟩] := by decide +kernel

/-- Nested operations, with a sample of another tree in between. -/
example : process (.op 0 .inter [.op 5 .union [.prim 1, .prim 2], .prim 3]) false
    [⟨10, some 1⟩, ⟨11, some 3⟩, ⟨12, some 2⟩, ⟨13, none⟩, ⟨14, some 1⟩, ⟨15, some 2⟩,
      ⟨16, some 3⟩] =
      some [⟨11, none⟩, ⟨13, none⟩, ⟨15, none⟩] := by decide +kernel

/-- **C30 fails** when the ray starts inside a solid: the test meant to find that
out asks for a node that is a primitive and a union at the same time
(libs/core/csgtree.cpp:200-201).  Here the camera is inside the solid that is
cut away; both hits on the other solid disappear. -/
theorem C30_violated : ∃ (T : Node) (hs : List (Hit Nat)), NonEmpty T ∧
    (prims T ++ ops T).Nodup ∧ (∀ h ∈ hs, ∀ i, h.node = some i → i ∉ ops T) ∧
    correct T hs = [⟨1, none⟩, ⟨2, none⟩] ∧ process T false hs = some [] := by
  refine ⟨.op 0 .diff [.prim 1, .prim 2], [⟨0, some 2⟩, ⟨1, some 1⟩, ⟨2, some 1⟩], ?_, ?_, ?_,
    ?_, ?_⟩
  · simp [NonEmpty, NonEmptyL]
  · decide +kernel
  · decide +kernel
  · decide +kernel
  · decide +kernel

/-- An operation "difference" without children reads the first element of an
empty vector (libs/core/csgtree.cpp:333). -/
theorem C30_empty_violated (hs : List (Hit Nat)) (o : Nat) (rest : List Node) :
    process (.op o .union (.op (o + 1) .diff [] :: rest)) false hs = none := by
  simp [process, processChildren, evaluateState, initial_eq]

end Verif.Core.Csg
