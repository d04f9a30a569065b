import Verif.Shader.LayersLemmas

/-!
C105: Shaders made of layers
-/

namespace Verif.Shader.Layers

variable {V : Type}

open Spec

/-- A new shader, one with a layer more and one with a connection more have maps that lead to the last layers with names. -/
theorem C105_map (s : Shader V) (l : Layer V) (a b c d : String) :
    Good (new : Shader V) ∧ (Good s → Good (addLayer s l)) ∧ (Good s → Good (addConnection s a b c d)) := by
  refine ⟨?_, map_add s l, fun h => h⟩
  intro name j
  simp [new, IsLast]

/-- The layers are in the order in which they were added, the map leads to the last with a name, and every variable that a layer
uses is used. -/
theorem C105_layers (ls : List (Layer V)) :
    (ls.foldl addLayer new).layers = ls ∧ Good (ls.foldl addLayer new) ∧
    ∀ b, (∃ l ∈ ls, l.uses.testBit b = true) → (ls.foldl addLayer new).uses.testBit b = true := by
  obtain ⟨h1, h2, h3, h4⟩ := fold_layers ls (new : Shader V)
  refine ⟨by rw [h1]; simp [new], h3 (C105_map new ⟨"", [], 0, id⟩ "" "" "" "").1, ?_⟩
  rintro b ⟨l, hl, hb⟩
  rw [h4]
  have : (ls.any fun l => l.uses.testBit b) = true := List.any_eq_true.mpr ⟨l, hl, hb⟩
  rw [this, Bool.or_true]

/-- Non-vacuity: the second of two layers with the same name is found. -/
example : ([⟨"a", [], 1, id⟩, ⟨"a", [], 2, id⟩].foldl addLayer (new : Shader Nat)).layerMap.lookup "a" = some 1 := by decide

/-- A variable counts as used though no layer uses it. -/
theorem C105_uses_violated (b : Nat) (hb : b < 32) (ls : List (Layer V)) : (ls.foldl addLayer new).uses.testBit b = true := by
  rw [(fold_layers ls (new : Shader V)).2.2.2 b]
  have : (new : Shader V).uses.testBit b = true := by
    show Nat.testBit 0xFFFFFFFF b = true
    interval_cases b <;> rfl
  rw [this, Bool.true_or]

/-- Asking for one variable never ends. -/
theorem C105_usesVar_violated (s : Shader V) (fuel var : Nat) : usesVar s fuel var = none := by
  induction fuel with
  | zero => rfl
  | succ n ih => exact ih

/-- Layers are evaluated in order: at first nothing happened, after the last layer the shader is done, and a layer changes just
what it changes itself and the variables its connections lead to. -/
theorem C105_order (std : List String) (s : Shader V) (σ : Store V) (hs : Good s) :
    before std s σ 0 = σ ∧ evaluate std s σ = before std s σ s.layers.length ∧
    ∀ k l, s.layers[k]? = some l → ∀ x, (∀ c ∈ s.connections, c.layer1 = l.name → ∀ o, ¬ Joins std s k l c o x) →
      before std s σ (k + 1) x = l.eval (before std s σ k) x := by
  refine ⟨rfl, ?_, ?_⟩
  · unfold before evaluate
    rw [List.take_of_length_le (by simp)]
  · intro k l hl x hx
    rw [before_succ std s σ k l hl]
    unfold step
    exact fold_other std s k l x hs _ _ fun c hc => hx c (List.mem_of_mem_filter hc) (by simpa using (List.mem_filter.mp hc).2)

/-- After a layer is evaluated, a variable that one of its connections leads to has the value of the variable of the layer the
connection starts from. -/
theorem C105_connection (std : List String) (s : Shader V) (σ : Store V) (hs : Good s) (i : Nat) (l : Layer V)
    (hl : s.layers[i]? = some l) (c : Conn) (hc : c ∈ s.connections) (h1 : c.layer1 = l.name) (o d : Key)
    (hj : Joins std s i l c o d)
    (ho : ∀ c' ∈ s.connections, c'.layer1 = l.name → ∀ o', ¬ Joins std s i l c' o' o)
    (hd : ∀ c' ∈ s.connections, c'.layer1 = l.name → ∀ o', Joins std s i l c' o' d → c' = c) :
    before std s σ (i + 1) d = l.eval (before std s σ i) o := by
  rw [before_succ std s σ i l hl]
  unfold step
  have hf : ∀ c' ∈ s.connections.filter fun c => c.layer1 == l.name, c' ∈ s.connections ∧ c'.layer1 = l.name :=
    fun c' h => ⟨List.mem_of_mem_filter h, by simpa using (List.mem_filter.mp h).2⟩
  exact fold_joins std s i l o d c hs hj _ _ _ (fun c' h => ho c' (hf c' h).1 (hf c' h).2) (fun c' h => hd c' (hf c' h).1 (hf c' h).2)
    rfl (Or.inl (List.mem_filter.mpr ⟨hc, by simpa using h1⟩))

/-- What a layer left in a variable is in the variable it is connected to when the later layer is evaluated, if nothing between
changes that variable. -/
theorem C105_flow (std : List String) (s : Shader V) (σ : Store V) (hs : Good s) (i j : Nat) (hij : i < j) (hjl : j ≤ s.layers.length)
    (l : Layer V) (hl : s.layers[i]? = some l) (c : Conn) (hc : c ∈ s.connections) (h1 : c.layer1 = l.name) (o d : Key)
    (hj : Joins std s i l c o d)
    (ho : ∀ c' ∈ s.connections, c'.layer1 = l.name → ∀ o', ¬ Joins std s i l c' o' o)
    (hd : ∀ c' ∈ s.connections, c'.layer1 = l.name → ∀ o', Joins std s i l c' o' d → c' = c)
    (hb : ∀ k m, i < k → k < j → s.layers[k]? = some m → (∀ τ, m.eval τ d = τ d) ∧
      ∀ c' ∈ s.connections, c'.layer1 = m.name → ∀ o', ¬ Joins std s k m c' o' d) :
    before std s σ j d = l.eval (before std s σ i) o := by
  induction j with
  | zero => omega
  | succ j ih =>
    by_cases he : i = j
    · subst he
      exact C105_connection std s σ hs i l hl c hc h1 o d hj ho hd
    · obtain ⟨m, hm⟩ : ∃ m, s.layers[j]? = some m := ⟨_, List.getElem?_eq_getElem (by omega)⟩
      obtain ⟨b1, b2⟩ := hb j m (by omega) (by omega) hm
      rw [(C105_order std s σ hs).2.2 j m hm d b2, b1]
      exact ih (by omega) (by omega) fun k m' hk hk' => hb k m' hk (by omega)

/-- Non-vacuity: a value goes from the first layer to the second. -/
example :
    let a : Layer Nat := ⟨"a", ["x"], 0, fun σ => Function.update σ (.arg 0 "x") 7⟩
    let b : Layer Nat := ⟨"b", ["y"], 0, fun σ => Function.update σ (.std "Ci") (σ (.arg 1 "y") + 1)⟩
    let s := addConnection ([a, b].foldl addLayer new) "a" "x" "b" "y"
    evaluate ["Ci"] s (fun _ => 0) (.std "Ci") = 8 := by decide

/-- An argument is that of the last layer that has it. -/
theorem C105_findArgument (s : Shader V) (v : String) (k : Key) :
    findArgument s v = some k ↔ ∃ j l, s.layers[j]? = some l ∧ v ∈ l.args ∧ k = .arg j v ∧
      ∀ j' l', j < j' → s.layers[j']? = some l' → v ∉ l'.args := by
  unfold findArgument
  generalize s.layers = ls
  induction ls using List.reverseRecOn with
  | nil => simp [findArgumentLoop]
  | append_singleton ls a ih =>
    rw [List.zipIdx_append, List.reverse_append]
    simp only [List.zipIdx_cons, List.zipIdx_nil, List.reverse_singleton, List.singleton_append, findArgumentLoop, Nat.zero_add]
    split_ifs with h
    · constructor
      · intro hk
        refine ⟨ls.length, a, by simp, h, (Option.some.inj hk).symm, ?_⟩
        intro j' l' hj hl
        rw [List.getElem?_eq_none (by simp; omega)] at hl
        simp at hl
      · rintro ⟨j, l, h1, h2, rfl, h3⟩
        by_cases hj : j < ls.length
        · exact absurd h (h3 ls.length a hj (by simp))
        · have := (List.getElem?_eq_some_iff.mp h1).1
          simp at this
          have : j = ls.length := by omega
          rw [this]
    · rw [ih]
      constructor
      · rintro ⟨j, l, h1, h2, h3, h4⟩
        have hj := (List.getElem?_eq_some_iff.mp h1).1
        refine ⟨j, l, by rw [List.getElem?_append_left hj]; exact h1, h2, h3, ?_⟩
        intro j' l' hj' hl'
        by_cases hk : j' < ls.length
        · rw [List.getElem?_append_left hk] at hl'
          exact h4 j' l' hj' hl'
        · rw [List.getElem?_append_right (by omega), List.getElem?_singleton] at hl'
          split_ifs at hl'
          simp at hl'
          rw [← hl']
          exact h
      · rintro ⟨j, l, h1, h2, h3, h4⟩
        by_cases hj : j < ls.length
        · rw [List.getElem?_append_left hj] at h1
          refine ⟨j, l, h1, h2, h3, ?_⟩
          intro j' l' hj' hl'
          have := (List.getElem?_eq_some_iff.mp hl').1
          exact h4 j' l' hj' (by rw [List.getElem?_append_left this]; exact hl')
        · rw [List.getElem?_append_right (by omega), List.getElem?_singleton] at h1
          split_ifs at h1
          simp at h1
          rw [← h1] at h2
          exact absurd h2 h

/-- An argument is set in all layers that have it, and nothing else is changed. -/
theorem C105_setArgument (s : Shader V) (v : String) (val : V) (σ : Store V) (k : Key) :
    ((∃ j l, s.layers[j]? = some l ∧ v ∈ l.args ∧ k = .arg j v) → setArgument s v val σ k = val) ∧
    ((¬ ∃ j l, s.layers[j]? = some l ∧ v ∈ l.args ∧ k = .arg j v) → setArgument s v val σ k = σ k) := by
  unfold setArgument
  generalize s.layers = ls
  induction ls using List.reverseRecOn with
  | nil => simp
  | append_singleton ls a ih =>
    rw [List.zipIdx_append, List.foldl_append]
    simp only [List.zipIdx_cons, List.zipIdx_nil, List.foldl_cons, List.foldl_nil, Nat.zero_add]
    have key : (∃ j l, (ls ++ [a])[j]? = some l ∧ v ∈ l.args ∧ k = .arg j v) ↔
        (∃ j l, ls[j]? = some l ∧ v ∈ l.args ∧ k = .arg j v) ∨ (v ∈ a.args ∧ k = .arg ls.length v) := by
      constructor
      · rintro ⟨j, l, h1, h2, h3⟩
        by_cases hj : j < ls.length
        · rw [List.getElem?_append_left hj] at h1
          exact Or.inl ⟨j, l, h1, h2, h3⟩
        · rw [List.getElem?_append_right (by omega), List.getElem?_singleton] at h1
          split_ifs at h1 with hz
          simp at h1
          have : j = ls.length := by omega
          subst this
          exact Or.inr ⟨h1 ▸ h2, h3⟩
      · rintro (⟨j, l, h1, h2, h3⟩ | ⟨h1, h2⟩)
        · have hj := (List.getElem?_eq_some_iff.mp h1).1
          exact ⟨j, l, by rw [List.getElem?_append_left hj]; exact h1, h2, h3⟩
        · exact ⟨ls.length, a, by simp, h1, h2⟩
    rw [key]
    constructor
    · rintro (h | ⟨h1, rfl⟩)
      · split_ifs with ha
        · by_cases hk : k = .arg ls.length v
          · rw [hk, Function.update_self]
          · rw [Function.update_of_ne hk]
            exact ih.1 h
        · exact ih.1 h
      · rw [if_pos h1, Function.update_self]
    · intro h
      rw [not_or] at h
      split_ifs with ha
      · rw [Function.update_of_ne fun e => h.2 ⟨ha, e⟩]
        exact ih.2 h.1
      · exact ih.2 h.1

/-- Non-vacuity: the second layer has the argument. -/
example : findArgument ([⟨"a", ["x"], 0, id⟩, ⟨"b", ["x", "y"], 0, id⟩].foldl addLayer (new : Shader Nat)) "x" = some (.arg 1 "x") := by
  decide

/-- A copy does nothing, whatever the layers do. -/
theorem C105_clone_violated :
    (∀ (std : List String) (u : Nat) (s : Shader V) (σ : Store V), evaluate std (clone u s) σ = σ) ∧
    ∃ (s : Shader Nat) (σ : Store Nat), evaluate [] s σ ≠ σ := by
  refine ⟨fun _ _ _ _ => rfl, [⟨"a", ["x"], 0, fun _ _ => 1⟩].foldl addLayer new, fun _ => 0, fun h => ?_⟩
  have := congrFun h (.std "Ci")
  revert this
  decide

end Verif.Shader.Layers
