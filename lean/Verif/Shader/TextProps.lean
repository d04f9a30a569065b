import Verif.Shader.TextLemmas

/-!
C106: Functions on text
-/

namespace Verif.Shader.Text

open Spec

/-- A format has its characters as they are and the values in order, if there are enough; `%` before another character gives that
character. -/
theorem C106_sprintf (g : Nat) (ps : List Piece) (hok : ∀ p ∈ ps, p.Ok) (args : List Arg) (h : asked ps ≤ args.length) :
    sprintf g (written ps) args = some (filled g ps args) := by
  have := loop_pieces g ps hok [] args [] h
  simpa [sprintf, sprintfLoop] using this

/-- Non-vacuity: a value and a sign. -/
example : sprintf 0 ['x', '=', '%', 'f', '%', '%'] [fun _ _ => ['1']] = some ['x', '=', '1', '%'] :=
  C106_sprintf 0 [.plain 'x', .plain '=', .value 'f', .other '%'] (by simp [Piece.Ok]) [fun _ _ => ['1']] (by simp [asked])

/-- If there are too few values, one beyond the last is used. -/
theorem C106_missing (g : Nat) (ps : List Piece) (hok : ∀ p ∈ ps, p.Ok) (args : List Arg) (h : args.length < asked ps) :
    sprintf g (written ps) args = none := by
  unfold sprintf
  generalize ([] : List Char) = res
  induction ps generalizing args res with
  | nil => simp [asked] at h
  | cons p ps ih =>
    have hok' : ∀ p ∈ ps, p.Ok := fun q hq => hok q (by simp [hq])
    have hp := hok p (by simp)
    cases p with
    | plain c =>
      simp only [written, Piece.written, List.singleton_append, asked] at *
      rw [loop_plain g c hp, ih hok' _ h]
    | other c =>
      simp only [written, Piece.written, List.cons_append, List.nil_append, asked] at *
      rw [loop_other g c (by rw [mem_letters]; exact hp), ih hok' _ h]
    | value c =>
      simp only [written, Piece.written, List.cons_append, List.nil_append, asked] at *
      rw [loop_value g c (by rw [mem_letters]; exact hp)]
      cases args with
      | nil => rfl
      | cons a args =>
        simp only [List.length_cons] at h
        exact ih hok' _ (by omega) _

/-- Every text is made of pieces, but for a `%` at the end. -/
theorem C106_pieces (str : List Char) :
    ∃ ps : List Piece, (∀ p ∈ ps, p.Ok) ∧ (str = written ps ∨ str = written ps ++ ['%']) := by
  induction hn : str.length using Nat.strongRecOn generalizing str with
  | ind n ih =>
    match str, hn with
    | [], _ => exact ⟨[], by simp, Or.inl rfl⟩
    | [c], _ =>
      by_cases hc : c = '%'
      · exact ⟨[], by simp, Or.inr (by simp [written, hc])⟩
      · exact ⟨[.plain c], by simpa [Piece.Ok] using hc, Or.inl rfl⟩
    | c :: d :: r, hn =>
      by_cases hc : c = '%'
      · obtain ⟨ps, h1, h2⟩ := ih r.length (by simp at hn; omega) r rfl
        by_cases hd : d = 'f' ∨ d = 'p' ∨ d = 'c' ∨ d = 'm' ∨ d = 's'
        · refine ⟨.value d :: ps, ?_, ?_⟩
          · intro p hp
            rcases List.mem_cons.mp hp with rfl | hp
            · exact hd
            · exact h1 p hp
          · simpa [written, Piece.written, hc] using h2
        · refine ⟨.other d :: ps, ?_, ?_⟩
          · intro p hp
            rcases List.mem_cons.mp hp with rfl | hp
            · exact hd
            · exact h1 p hp
          · simpa [written, Piece.written, hc] using h2
      · obtain ⟨ps, h1, h2⟩ := ih (d :: r).length (by simp at hn ⊢; omega) (d :: r) rfl
        refine ⟨.plain c :: ps, ?_, ?_⟩
        · intro p hp
          rcases List.mem_cons.mp hp with rfl | hp
          · exact hc
          · exact h1 p hp
        · simpa [written, Piece.written] using h2

/-- A `%` at the end adds the character 0. -/
theorem C106_end_violated (g : Nat) (ps : List Piece) (hok : ∀ p ∈ ps, p.Ok) (args : List Arg) (h : asked ps ≤ args.length) :
    sprintf g (written ps ++ ['%']) args = some (filled g ps args ++ ['\x00']) := by
  have := loop_pieces g ps hok ['%'] args [] h
  simpa [sprintf, sprintfLoop] using this

/-- If something is varying, the text of every running point is printed in order; otherwise one text is printed. -/
theorem C106_printf (count : Nat) (hc : 0 < count) (rs : Nat → Bool) (str : Var (List Char)) (args : List (Bool × Arg)) :
    (anyVarying (str.varying :: args.map Prod.fst) → printf count rs str args =
      (running count rs).map fun g => sprintf g (if str.varying then str.val g else str.val 0) (args.map Prod.snd)) ∧
    (¬ anyVarying (str.varying :: args.map Prod.fst) → printf count rs str args = [sprintf 0 (str.val 0) (args.map Prod.snd)]) := by
  have hv : (args.foldl (fun v a => a.1 || v) str.varying = true) ↔ anyVarying (str.varying :: args.map Prod.fst) := by
    rw [fold_or Prod.fst, any_cons, any_map]
  unfold printf
  constructor
  · intro h
    rw [hv.mpr h]
    simp only
    rw [grid_varying, fold_append, List.nil_append]
    unfold running
    rw [List.range_eq_range']
    rfl
  · intro h
    have : args.foldl (fun v a => a.1 || v) str.varying = false := by
      rw [← Bool.not_eq_true, hv]; exact h
    rw [this]
    simp only
    rw [grid_uniform _ _ _ _ _ hc]
    simp [Var.get]

/-- A varying result of `format` has the text of each running point and is not changed elsewhere; a uniform one has one text. -/
theorem C106_format (count : Nat) (hc : 0 < count) (rs : Nat → Bool) (str : Var (List Char)) (args : List (Bool × Arg))
    (result : Var (Option (List Char))) :
    (result.varying = true → ∀ k, (format count rs str args result).val k = if k < count ∧ rs k = true then
      sprintf k (if str.varying then str.val k else str.val 0) (args.map Prod.snd) else result.val k) ∧
    (¬ anyVarying (result.varying :: str.varying :: args.map Prod.fst) → ∀ k, (format count rs str args result).val k =
      sprintf 0 (str.val 0) (args.map Prod.snd)) := by
  unfold format
  constructor
  · intro h k
    simp only [h, Bool.true_or]
    rw [grid_varying, (fold_set (fun g => sprintf g (str.get g) (args.map Prod.snd)) _ result h).2]
    simp only [mem_running]
    rfl
  · intro h k
    have hv : (args.foldl (fun v a => a.1 || v) str.varying = true) ↔ anyVarying (str.varying :: args.map Prod.fst) := by
      rw [fold_or Prod.fst, any_cons, any_map]
    rw [any_cons, not_or] at h
    have h1 : result.varying = false := Bool.not_eq_true _ ▸ h.1
    have h2 : args.foldl (fun v a => a.1 || v) str.varying = false := by
      rw [← Bool.not_eq_true, hv]
      exact h.2
    have h3 : str.varying = false := by
      rw [any_cons, not_or] at h
      exact Bool.not_eq_true _ ▸ h.2.1
    rw [h1, h2]
    simp only [Bool.or_false]
    rw [grid_uniform _ _ _ _ _ hc]
    simp [Var.set, h1, Var.get, h3]

/-- `concat` puts all texts together, at each running point or once. -/
theorem C106_concat (count : Nat) (hc : 0 < count) (rs : Nat → Bool) (a b : Var (List Char)) (args : List (Var (List Char)))
    (result : Var (List Char)) :
    let at' := fun (x : Var (List Char)) (g : Nat) => if x.varying then x.val g else x.val 0
    (result.varying = true → ∀ k, (concat count rs a b args result).val k = if k < count ∧ rs k = true then
      ((a :: b :: args).map fun x => at' x k).flatten else result.val k) ∧
    (¬ anyVarying (result.varying :: a.varying :: b.varying :: args.map Var.varying) → ∀ k, (concat count rs a b args result).val k =
      ((a :: b :: args).map fun x => x.val 0).flatten) := by
  intro at'
  unfold concat
  constructor
  · intro h k
    simp only [h, Bool.true_or]
    rw [grid_varying, (fold_set (fun g => args.foldl (fun s x => s ++ x.get g) (a.get g ++ b.get g)) _ result h).2]
    simp only [mem_running, fold_text]
    simp [at', List.flatMap_def, Var.get]
  · intro h k
    rw [any_cons, any_cons, any_cons, any_map, not_or, not_or, not_or] at h
    obtain ⟨h1, h2, h3, h4⟩ := h
    have h1 : result.varying = false := Bool.not_eq_true _ ▸ h1
    have h2 : a.varying = false := Bool.not_eq_true _ ▸ h2
    have h3 : b.varying = false := Bool.not_eq_true _ ▸ h3
    have h5 : ∀ x ∈ args, x.varying = false := by
      intro x hx
      by_contra hne
      exact h4 ⟨x, hx, by simpa using hne⟩
    have h6 : args.foldl (fun v x => x.varying || v) (b.varying || a.varying) = false := by
      rw [← Bool.not_eq_true, fold_or Var.varying]
      simp [h2, h3]
      exact h5
    rw [h1, h6]
    simp only [Bool.or_false]
    rw [grid_uniform _ _ _ _ _ hc, fold_text]
    simp only [Var.set, h1, Var.get, h2, h3, Bool.false_eq_true, if_false, List.map_cons, List.flatten_cons, List.append_assoc,
      List.flatMap_def]
    congr 3
    apply List.map_congr_left
    intro x hx
    simp [h5 x hx]

/-- Non-vacuity: three texts at a point. -/
example : (concat 2 (fun g => g == 1) ⟨false, fun _ => ['a']⟩ ⟨false, fun _ => ['b']⟩ [⟨false, fun _ => ['c']⟩] ⟨true, fun _ => []⟩).val 1 =
    ['a', 'b', 'c'] := by decide

/-- `match` gives for each running point whether the pattern is found in the text, and leaves the others; if pattern and text are
uniform all points must be running. -/
theorem C106_match_partial (search : List Char → List Char → Bool) (count : Nat) (rs : Nat → Bool) (pattern str : Var (List Char))
    (result : Var Bool) (k : Nat) (hk : k < count)
    (h : (pattern.varying = true ∨ str.varying = true) ∧ 1 < count ∨ rs k = true) :
    («match» search count rs pattern str result).val k = if rs k = true then
      search (if pattern.varying then pattern.val k else pattern.val 0) (if str.varying then str.val k else str.val 0)
      else result.val k := by
  unfold «match»
  by_cases hc : count > 1
  · cases hp : pattern.varying <;> cases hs : str.varying <;> simp_all [Var.setAll]
  · have : k = 0 := by omega
    subst this
    have hr : rs 0 = true := by
      rcases h with h | h
      · omega
      · exact h
    simp [hc, hr, Var.setAll]

/-- Non-vacuity: one of two points. -/
example : («match» (fun p s => p == s) 2 (fun g => g == 0) ⟨false, fun _ => ['a']⟩ ⟨true, fun _ => ['a']⟩ ⟨true, fun _ => false⟩).val 0 = true := by
  decide

/-- With a uniform pattern and text, the result is set at points that are not running. -/
theorem C106_match_violated : ∃ (search : List Char → List Char → Bool) (rs : Nat → Bool) (pattern str : Var (List Char)) (result : Var Bool),
    result.varying = true ∧ rs 0 = false ∧ («match» search 2 rs pattern str result).val 0 ≠ result.val 0 :=
  ⟨fun _ _ => true, fun g => g == 1, ⟨false, fun _ => []⟩, ⟨false, fun _ => []⟩, ⟨true, fun _ => false⟩, rfl, rfl, by decide⟩

end Verif.Shader.Text
