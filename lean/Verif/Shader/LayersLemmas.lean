import Verif.Shader.Layers
import Mathlib.Tactic.Common
import Mathlib.Data.Nat.Bitwise
import Mathlib.Data.List.Induction
import Mathlib.Tactic.IntervalCases

/-!
Lemmas about Shaders made of layers
-/

namespace Verif.Shader.Layers

variable {V : Type}

namespace Spec

/-- `j` is the number of the last layer with a name. -/
def IsLast (s : Shader V) (name : String) (j : Nat) : Prop :=
  (∃ l, s.layers[j]? = some l ∧ l.name = name) ∧ ∀ k l, j < k → s.layers[k]? = some l → l.name ≠ name

/-- The map leads to the last layer with a name. -/
def Good (s : Shader V) : Prop := ∀ name j, s.layerMap.lookup name = some j ↔ IsLast s name j

/-- What a name means in a layer: one of its arguments, or a standard variable. -/
def Means (std : List String) (i : Nat) (l : Layer V) (v : String) (k : Key) : Prop :=
  (v ∈ l.args ∧ k = .arg i v) ∨ (v ∉ l.args ∧ v ∈ std ∧ k = .std v)

/-- A connection from the layer `l` with the number `i` joins two variables. -/
def Joins (std : List String) (s : Shader V) (i : Nat) (l : Layer V) (c : Conn) (o d : Key) : Prop :=
  ∃ j t, IsLast s c.layer2 j ∧ s.layers[j]? = some t ∧ Means std i l c.variable1 o ∧ Means std j t c.variable2 d

/-- The values before the layer with the number `k` is evaluated. -/
def before (std : List String) (s : Shader V) (σ : Store V) (k : Nat) : Store V :=
  (s.layers.zipIdx.take k).foldl (step std s) σ

end Spec

open Spec

/-! ## Building -/

theorem isLast_unique (s : Shader V) (name : String) (j j' : Nat) (h : IsLast s name j) (h' : IsLast s name j') : j = j' := by
  obtain ⟨⟨l, h1, h2⟩, h3⟩ := h
  obtain ⟨⟨l', h1', h2'⟩, h3'⟩ := h'
  rcases lt_trichotomy j j' with h | h | h
  · exact absurd h2' (h3 _ _ h h1')
  · exact h
  · exact absurd h2 (h3' _ _ h h1)

theorem map_add (s : Shader V) (l : Layer V) : Good s → Good (addLayer s l) := by
  intro h name j
  have hl : (addLayer s l).layers = s.layers ++ [l] := rfl
  have hm : (addLayer s l).layerMap = (l.name, s.layers.length) :: s.layerMap := by simp [addLayer]
  rw [hm, List.lookup_cons]
  by_cases hn : name = l.name
  · subst hn
    simp only [beq_self_eq_true, Option.some.injEq]
    constructor
    · rintro rfl
      refine ⟨⟨l, by rw [hl]; simp, rfl⟩, ?_⟩
      intro k l' hk hk'
      rw [hl, List.getElem?_eq_none (by simp; omega)] at hk'
      simp at hk'
    · rintro ⟨⟨l', h1, h2⟩, h3⟩
      by_contra hne
      have hj : j < s.layers.length := by
        rw [hl] at h1
        have := List.getElem?_eq_some_iff.mp h1
        obtain ⟨h, _⟩ := this
        simp at h
        omega
      exact h3 s.layers.length l hj (by rw [hl]; simp) rfl
  · have : (name == l.name) = false := by simpa using hn
    simp only [this]
    rw [h name j]
    unfold IsLast
    rw [hl]
    constructor
    · rintro ⟨⟨l', h1, h2⟩, h3⟩
      have hj := (List.getElem?_eq_some_iff.mp h1).1
      refine ⟨⟨l', by rw [List.getElem?_append_left hj]; exact h1, h2⟩, ?_⟩
      intro k l'' hk hk'
      by_cases hkl : k < s.layers.length
      · rw [List.getElem?_append_left hkl] at hk'
        exact h3 k l'' hk hk'
      · rw [List.getElem?_append_right (by omega)] at hk'
        rw [List.getElem?_singleton] at hk'
        split_ifs at hk'
        simp at hk'
        rw [← hk']
        exact fun h => hn h.symm
    · rintro ⟨⟨l', h1, h2⟩, h3⟩
      by_cases hj : j < s.layers.length
      · rw [List.getElem?_append_left hj] at h1
        refine ⟨⟨l', h1, h2⟩, ?_⟩
        intro k l'' hk hk'
        have := (List.getElem?_eq_some_iff.mp hk').1
        exact h3 k l'' hk (by rw [List.getElem?_append_left this]; exact hk')
      · rw [List.getElem?_append_right (by omega), List.getElem?_singleton] at h1
        split_ifs at h1
        simp at h1
        exact absurd (by rw [h1, h2]) (fun h : l.name = name => hn h.symm)

theorem fold_layers (ls : List (Layer V)) (s : Shader V) :
    (ls.foldl addLayer s).layers = s.layers ++ ls ∧ (ls.foldl addLayer s).connections = s.connections ∧
    (Good s → Good (ls.foldl addLayer s)) ∧
    ∀ b, (ls.foldl addLayer s).uses.testBit b = (s.uses.testBit b || ls.any fun l => l.uses.testBit b) := by
  induction ls generalizing s with
  | nil => simp
  | cons l ls ih =>
    obtain ⟨h1, h2, h3, h4⟩ := ih (addLayer s l)
    rw [List.foldl_cons]
    refine ⟨by rw [h1]; simp [addLayer], by rw [h2]; rfl, fun h => h3 ((map_add s l) h), ?_⟩
    intro b
    rw [h4]
    simp [addLayer, Nat.testBit_or, Bool.or_assoc]

/-! ## Evaluating -/

theorem find_iff (std : List String) (i : Nat) (l : Layer V) (v : String) (k : Key) : find std i l v = some k ↔ Means std i l v k := by
  unfold find Means
  split_ifs with h1 h2
  · simp [h1, eq_comm]
  · simp [h1, h2, eq_comm]
  · simp [h1, h2]

theorem connect_joins (std : List String) (s : Shader V) (i : Nat) (l : Layer V) (σ : Store V) (c : Conn) (o d : Key) (hs : Good s)
    (h : Joins std s i l c o d) : connect std s i l σ c = Function.update σ d (σ o) := by
  obtain ⟨j, t, h1, h2, h3, h4⟩ := h
  unfold connect
  rw [(hs _ _).mpr h1]
  simp only [h2, (find_iff ..).mpr h3, (find_iff ..).mpr h4]

theorem connect_not (std : List String) (s : Shader V) (i : Nat) (l : Layer V) (σ : Store V) (c : Conn) (hs : Good s)
    (h : ∀ o d, ¬ Joins std s i l c o d) : connect std s i l σ c = σ := by
  unfold connect
  cases h1 : s.layerMap.lookup c.layer2 with
  | none => rfl
  | some j =>
    simp only
    cases h2 : s.layers[j]? with
    | none => rfl
    | some t =>
      simp only
      cases h3 : find std i l c.variable1 with
      | none => rfl
      | some o =>
        cases h4 : find std j t c.variable2 with
        | none => rfl
        | some d => exact absurd ⟨j, t, (hs _ _).mp h1, h2, (find_iff ..).mp h3, (find_iff ..).mp h4⟩ (h o d)

theorem connect_other (std : List String) (s : Shader V) (i : Nat) (l : Layer V) (σ : Store V) (c : Conn) (x : Key) (hs : Good s)
    (h : ∀ o, ¬ Joins std s i l c o x) : connect std s i l σ c x = σ x := by
  by_cases hj : ∃ o d, Joins std s i l c o d
  · obtain ⟨o, d, hj⟩ := hj
    rw [connect_joins std s i l σ c o d hs hj]
    exact Function.update_of_ne (fun e : x = d => h o (by rw [e]; exact hj)) _ _
  · rw [connect_not std s i l σ c hs fun o d h => hj ⟨o, d, h⟩]

theorem fold_other (std : List String) (s : Shader V) (i : Nat) (l : Layer V) (x : Key) (hs : Good s) (cs : List Conn) (σ : Store V)
    (h : ∀ c ∈ cs, ∀ o, ¬ Joins std s i l c o x) : cs.foldl (connect std s i l) σ x = σ x := by
  induction cs generalizing σ with
  | nil => rfl
  | cons c cs ih =>
    rw [List.foldl_cons, ih _ fun c' hc' => h c' (by simp [hc']), connect_other std s i l σ c x hs (h c (by simp))]

theorem fold_joins (std : List String) (s : Shader V) (i : Nat) (l : Layer V) (o d : Key) (c : Conn) (hs : Good s)
    (hc : Joins std s i l c o d) (cs : List Conn) (σ : Store V) (x : V)
    (ho : ∀ c' ∈ cs, ∀ o', ¬ Joins std s i l c' o' o) (hd : ∀ c' ∈ cs, ∀ o', Joins std s i l c' o' d → c' = c)
    (hx : σ o = x) (hm : c ∈ cs ∨ σ d = x) : cs.foldl (connect std s i l) σ d = x := by
  induction cs generalizing σ with
  | nil =>
    rcases hm with h | h
    · simp at h
    · exact h
  | cons c' cs ih =>
    rw [List.foldl_cons]
    apply ih
    · exact fun c'' h => ho c'' (by simp [h])
    · exact fun c'' h => hd c'' (by simp [h])
    · rw [connect_other std s i l σ c' o hs (ho c' (by simp)), hx]
    · by_cases he : c' = c
      · right
        subst he
        rw [connect_joins std s i l σ c' o d hs hc, Function.update_self, hx]
      · rcases hm with h | h
        · left
          rcases List.mem_cons.mp h with h | h
          · exact absurd h.symm he
          · exact h
        · right
          rw [connect_other std s i l σ c' d hs fun o' hj => he (hd c' (by simp) o' hj), h]

theorem before_succ (std : List String) (s : Shader V) (σ : Store V) (k : Nat) (l : Layer V) (h : s.layers[k]? = some l) :
    before std s σ (k + 1) = step std s (before std s σ k) (l, k) := by
  unfold before
  rw [List.take_add_one, List.getElem?_zipIdx, h]
  simp

/-! ## Arguments -/

/-! ## Copies -/

end Verif.Shader.Layers
