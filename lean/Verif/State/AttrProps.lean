import Verif.State.AttrLemmas

/-!
# C58: attributes of blocks and primitives

In the specification (`Scene`) every block and every primitive has attributes of its own: a request changes those of the
current block, opening a block copies them, closing an attribute, frame, world or solid block forgets them, closing a
transform or motion block keeps them, and a primitive keeps those it was made with. The program shares the attributes and
copies them when there is more than one reference.
-/

namespace Verif.State.Attr

variable {V : Type}

/-- Sharing cannot be observed: after any requests all blocks and all primitives have the attributes of the specification
— parameters, shaders and lights. Missing: trim curves, and layers that are added to a shader with layers. -/
theorem C58_values_partial (ops : List (Op V)) (hl : (scene (initial : St V)).NoSecondLayer ops) :
    scene (run initial ops) = (scene (initial : St V)).run ops := (run_spec inv_initial ops hl).2

/-- Attributes for the examples: two primitives and a block between them. -/
def exampleOps : List (Op Nat) :=
  [.param "System" "Color" 1, .openB .attribute, .param "System" "Color" 2, .prim, .param "System" "Color" 3, .prim,
   .closeB .attribute, .prim]

example : (scene (initial : St Nat)).NoSecondLayer exampleOps := by
  simp [exampleOps, Scene.NoSecondLayer]

example : (scene (run initial exampleOps)).prims.map (fun v => v.params "System" "Color") = [some 1, some 3, some 2] := by
  decide +kernel

/-- A block that saves the attributes: after its end the attributes of all open blocks are those of before its begin,
whatever happened in it. Missing as in `C58_values_partial`. -/
theorem C58_saved_partial (pre body : List (Op V)) (t u : Ty) (v : Val V) (bs : List (Ty × Val V))
    (hl : (scene (initial : St V)).NoSecondLayer (pre ++ .openB u :: body ++ [.closeB u]))
    (hp : (scene (run initial pre)).blocks = (t, v) :: bs) (hm : mayOpen t u) (hu : u ≠ .transform ∧ u ≠ .motion)
    (hb : Balanced u body) :
    (scene (run initial (pre ++ .openB u :: body ++ [.closeB u]))).blocks = (scene (run initial pre)).blocks := by
  rw [C58_values_partial _ hl, hp]
  rw [List.append_assoc] at hl
  rw [C58_values_partial pre (noSecond_append hl).1] at hp
  rw [List.append_assoc, run_append]
  generalize (scene (initial : St V)).run pre = c at hp
  have h1 : (c.step (.openB u)).blocks = (u, v) :: (t, v) :: bs := by
    unfold Scene.step; simp only [hp]; rw [if_pos hm]
  obtain ⟨v2, h2⟩ := balanced_run hb _ _ _ h1
  have e : c.run (.openB u :: body ++ [.closeB u]) = ((c.step (.openB u)).run body).step (.closeB u) := by
    rw [List.cons_append]
    show (c.step (.openB u)).run (body ++ [.closeB u]) = _
    rw [run_append]
    rfl
  rw [e]
  generalize (c.step (.openB u)).run body = d at h2
  unfold Scene.step
  simp only [h2, if_true]
  rw [if_neg (by tauto)]

example : (scene (run initial exampleOps)).blocks.map (fun b => (b.1, b.2.params "System" "Color")) = [(.main, some 1)] := by
  decide +kernel

/-- A transform or motion block saves nothing: after its end the block around it has the attributes that the block had; the
blocks further out have theirs. Missing as in `C58_values_partial`. -/
theorem C58_kept_partial (pre body : List (Op V)) (t u : Ty) (v : Val V) (bs : List (Ty × Val V))
    (hl : (scene (initial : St V)).NoSecondLayer (pre ++ .openB u :: body ++ [.closeB u]))
    (hp : (scene (run initial pre)).blocks = (t, v) :: bs) (hm : mayOpen t u) (hu : u = .transform ∨ u = .motion)
    (hb : Balanced u body) :
    ∃ w, (scene (run initial (pre ++ .openB u :: body))).blocks = (u, w) :: (t, v) :: bs
      ∧ (scene (run initial (pre ++ .openB u :: body ++ [.closeB u]))).blocks = (t, w) :: bs := by
  have hl1 := (noSecond_append hl).1
  rw [C58_values_partial _ hl, C58_values_partial _ hl1]
  rw [C58_values_partial pre (noSecond_append hl1).1] at hp
  rw [List.append_assoc, run_append, run_append]
  generalize (scene (initial : St V)).run pre = c at hp
  have h1 : (c.step (.openB u)).blocks = (u, v) :: (t, v) :: bs := by
    unfold Scene.step; simp only [hp]; rw [if_pos hm]
  obtain ⟨v2, h2⟩ := balanced_run hb _ _ _ h1
  refine ⟨v2, h2, ?_⟩
  have e : c.run (.openB u :: body ++ [.closeB u]) = ((c.step (.openB u)).run body).step (.closeB u) := by
    rw [List.cons_append]
    show (c.step (.openB u)).run (body ++ [.closeB u]) = _
    rw [run_append]
    rfl
  rw [e]
  generalize (c.step (.openB u)).run body = d at h2
  unfold Scene.step
  simp only [h2, if_true]
  rw [if_pos hu]

example : (scene (run (initial : St Nat) [.param "System" "Color" 1, .openB .transform, .param "System" "Color" 2,
    .closeB .transform])).blocks.map (fun b => (b.1, b.2.params "System" "Color")) = [(.main, some 2)] := by decide +kernel

/-- What a primitive was made with does not change. Missing as in `C58_values_partial`. -/
theorem C58_primitives_partial (pre post : List (Op V)) (hl : (scene (initial : St V)).NoSecondLayer (pre ++ post)) :
    (scene (run initial pre)).prims <:+ (scene (run initial (pre ++ post))).prims := by
  rw [C58_values_partial _ hl, C58_values_partial _ (noSecond_append hl).1, run_append]
  exact prims_run _ _

example : (scene (run initial (exampleOps ++ [.param "System" "Color" 7, .prim]))).prims.map
    (fun v => v.params "System" "Color") = [some 7, some 1, some 3, some 2] := by decide +kernel

/-- A primitive that follows a request for trim curves at once is trimmed by them. -/
theorem C58_trim_partial (s : St V) (loops : List Nat) :
    ∃ a, (run s [.trim loops, .prim]).prims.head? = some a ∧ ((run s [.trim loops, .prim]).attrs a).trim = loops := by
  refine ⟨cur (setTrim s loops), rfl, ?_⟩
  show ((setTrim s loops).attrs (cur (setTrim s loops))).trim = loops
  show AttrObj.trim (Function.update (β := fun _ => AttrObj) _ _ _ (cur (writeCur s))) = loops
  rw [Function.update_self]

/-- The trim curves of the primitives, the last one first. -/
def primTrims (s : St V) : List (List Nat) := s.prims.map fun a => (s.attrs a).trim

example : primTrims (run (initial : St Nat) [.trim [5], .prim]) = [[5]] := by decide +kernel

/-- Trim curves are attributes, but they are lost in a block: with `TrimCurve`, `AttributeBegin`, `NuPatch` the patch is not
trimmed. -/
theorem C58_trim_block_violated : primTrims (run (initial : St Nat) [.trim [5], .openB .attribute, .prim]) = [[]] := by
  decide +kernel

/-- They are also lost if an attribute is changed after a primitive was made: the first patch is trimmed, the second one, after
`Color`, is not. -/
theorem C58_trim_copy_violated : primTrims (run (initial : St Nat) [.trim [5], .prim, .param "System" "Color" 1, .prim])
    = [[], [5]] := by decide +kernel

/-- A layer that is added in a block stays after the block, also in the shader of primitives that were made before: the
specification has one layer for the primitive and for the outer block, the program has two. -/
theorem C58_layer_violated :
    let ops : List (Op Nat) := [.layer .surface 1, .prim, .openB .attribute, .layer .surface 2, .closeB .attribute]
    (scene (run initial ops)).prims.map (fun v => v.shaders .surface) = [some (.layered [1, 2])]
    ∧ (scene (run initial ops)).blocks.map (fun b => b.2.shaders .surface) = [some (.layered [1, 2])]
    ∧ ((scene (initial : St Nat)).run ops).prims.map (fun v => v.shaders .surface) = [some (.layered [1])]
    ∧ ((scene (initial : St Nat)).run ops).blocks.map (fun b => b.2.shaders .surface) = [some (.layered [1])] := by
  decide +kernel

/-- A begin that is rejected opens no block, but the end that belongs to it closes one: after two `FrameBegin` and one
`FrameEnd` no frame is open. (The filter of C21 does not let the second `FrameBegin` pass.) -/
theorem C58_rejected_violated :
    (run (initial : St Nat) [.openB .frame, .openB .frame, .closeB .frame]).blocks = [⟨.main, 0⟩] := by decide +kernel

end Verif.State.Attr
