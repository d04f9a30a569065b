import Verif.Shader.SlxTable

/-!
# Compiled shaders: facts about the table of instructions
-/

namespace Verif.Shader.Slx

theorem table_hashes : table.map (fun r => hash64 r.name) = tableHashes := by decide +kernel

/-- Are all elements different from those after them? -/
def distinct : List Nat → Bool
  | [] => true
  | a :: l => l.all (fun b => a != b) && distinct l

theorem distinct_idx : ∀ {l : List Nat}, distinct l = true → ∀ {i j : Nat} {a : Nat}, l[i]? = some a →
    l[j]? = some a → i = j := by
  intro l
  induction l with
  | nil => intro _ i j a h; simp at h
  | cons x l ih =>
    intro h i j a hi hj
    simp only [distinct, Bool.and_eq_true, List.all_eq_true] at h
    cases i with
    | zero =>
      cases j with
      | zero => rfl
      | succ j =>
        simp only [List.getElem?_cons_zero, Option.some.injEq] at hi
        subst hi
        have := h.1 x (List.mem_of_getElem? (by simpa using hj))
        simp at this
    | succ i =>
      cases j with
      | zero =>
        simp only [List.getElem?_cons_zero, Option.some.injEq] at hj
        subst hj
        have := h.1 x (List.mem_of_getElem? (by simpa using hi))
        simp at this
      | succ j =>
        exact congrArg (· + 1) (ih h.2 (by simpa using hi) (by simpa using hj))

theorem hashes_distinct : distinct tableHashes = true := by decide +kernel

theorem table_rows : ∀ a ∈ table, ∀ b ∈ table, hash64 a.name = hash64 b.name → a = b := by
  intro a ha b hb h
  obtain ⟨i, hi⟩ := List.mem_iff_getElem?.mp ha
  obtain ⟨j, hj⟩ := List.mem_iff_getElem?.mp hb
  have h1 : tableHashes[i]? = some (hash64 a.name) := by
    rw [← table_hashes, List.getElem?_map, hi]; rfl
  have h2 : tableHashes[j]? = some (hash64 a.name) := by
    rw [← table_hashes, List.getElem?_map, hj, h]; rfl
  have := distinct_idx hashes_distinct h1 h2
  subst this
  rw [hi] at hj
  exact Option.some.inj hj

theorem table_lengths : ∀ a ∈ table, a.params ≠ [] → ∀ b ∈ table, a.cmd = b.cmd →
    b.params.length = a.params.length := by decide +kernel

end Verif.Shader.Slx
