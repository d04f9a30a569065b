import Verif.Shader.SlxSample

/-
Property C79: a compiled shader is loaded as the program that was written.
-/

namespace Verif.Shader.Slx

variable {F : Type}

/-- **C79**, loading.  Let `s` be a shader that fulfils `Good`.  Then what the compiler writes for it is
loaded by the machine, with the type, the bits of the standard variables and the variables of `s`. The
elements of both programs stand for the instructions of `s` in their order: the command for the name, every
number as it was, every string as what its text means, for every variable an element from which `GetVar`
gives the variable with that name, and for every jump the element before which its label stands. What is
missing are the cases of the theorems `_violated` below. -/
theorem C79_loaded_partial (L : Lib F) (tmp me : Nat) (s : Shader F) (h : Good (machine L tmp me) s) :
    ∃ st N, (∀ n, N ≤ n →
        load (machine L tmp me) n (write (machine L tmp me).L s) = .ok st) ∧
      shaderTypes[st.type]? = some s.type ∧ st.uses = s.uses ∧ st.vars = s.vars.map Decl.var ∧
      Code table (Same (machine L tmp me) (s.vars.map (·.name)) s.init) s.init st.init ∧
      Code table (Same (machine L tmp me) (s.vars.map (·.name)) s.code) s.code st.code :=
  load_write (machine_ok L tmp me) h

example : Good toyE sample := sample_good

example : load toyE 40 (write toyE.L sample) = .ok
    ⟨.code, true, 0, 393216, sample.vars.map Decl.var, 3, 17,
      [.cmd "SO_pushif".toList, .num (some 3), .cmd "SO_pop".toList, .var 0], sampleCode,
      [0, 0, 15]⟩ := by decide +kernel

/-- **C79**, strings.  The text of a string is read as what it means, up to the quote after it. -/
theorem C79_string_partial (t m r : Str) (n : Nat) (h : Means t m) (hn : t.length < n) :
    getString n ⟨' ' :: '"' :: (t ++ '"' :: r), false, false⟩ = some (m, ⟨r, false, false⟩) :=
  getString_means h hn ((Q_space (c := ' ') (by decide)).mp (Q_refl (' ' :: '"' :: (t ++ '"' :: r))))

example : Means "a\\n\\x41\\101\\\\ b".toList "a\nAA\\ b".toList := sample_string

example : Means "\\0".toList [] :=
  Means.oct (c := '0') (ds := []) (t := []) (by unfold Oct; decide) (by decide) (.inr (by simp)) (by decide) .nil

/-- **C79**, words.  The machine knows the types of shaders by the names and numbers which the compiler gives them, and puts
labels in for the commands of exactly those instructions which the compiler writes with a label. -/
theorem C79_words :
    shaderTypes = compilerTypes ∧ (∀ r ∈ table, r.cmd ∈ jumps ↔ r.name ∈ jumpNames) ∧
      ∀ n ∈ jumpNames, ∃ r ∈ table, r.name = n := by
  refine ⟨rfl, by decide +kernel, by decide +kernel⟩

/-- **C79**, versions.  A shader that was written for another version is not loaded. -/
theorem C79_version (L : Lib F) (tmp me : Nat) (ty v r : Str) (hty : ty ∈ shaderTypes)
    (hw : Word 254 v) (hv : v ≠ version) :
    ∃ N, ∀ n, N ≤ n → load (machine L tmp me) n
      (ty ++ '\n' :: ("AQSIS_V ".toList ++ (v ++ '\n' :: r))) = .err := by
  obtain ⟨i, _, k, N, h⟩ := type_ok (machine_ok L tmp me) hty
    ("AQSIS_V ".toList ++ (v ++ '\n' :: r)) St.start rfl
  refine ⟨N + 1 + k, fun n hn => ?_⟩
  obtain ⟨m, rfl⟩ : ∃ m, n = (m + 1) + k := ⟨n - k - 1, by omega⟩
  have h1 := h (m + 1) (by omega)
  have e : (⟨ty ++ '\n' :: ("AQSIS_V ".toList ++ (v ++ '\n' :: r)), false, false⟩ : Stream) =
    str (ty ++ '\n' :: ("AQSIS_V ".toList ++ (v ++ '\n' :: r))) := rfl
  rw [load, e, h1]
  have hwv : Word 254 "AQSIS_V".toList := word_of (by decide)
  have g1 : getToken (str ("AQSIS_V ".toList ++ (v ++ '\n' :: r))) = ("AQSIS_V".toList, str (v ++ '\n' :: r)) :=
    getToken_word hwv (c := ' ') (by decide) (Q_refl _)
  have g2 := getToken_word hw (c := '\n') (r := r) (by decide) (Q_refl _)
  have hp : ∀ st : St F, st.spec = true →
      pass (machine L tmp me) m "AQSIS_V".toList (str (v ++ '\n' :: r)) st = .err := by
    intro st hs
    unfold pass
    simp only [hs, if_true, g2, hv, if_false]
  have he : (str ("AQSIS_V ".toList ++ (v ++ '\n' :: r))).eof = false := rfl
  rw [loadLoop, he, g1]
  simp only [Bool.false_eq_true, if_false]
  rw [hp _ rfl]

example : Word 254 "1".toList ∧ "1".toList ≠ version := ⟨wordB_iff (by decide), by decide⟩

/-- A shader whose default of a parameter has a jump in it. -/
def jumpy : Shader (Option Nat) where
  type := "surface".toList
  uses := 0
  vars := [⟨.parameter, .uniform, "float".toList, "Ka".toList, none, false⟩]
  init := [.op "jmp".toList [.lab 5], .label 5]
  code := []

/-- **C79**, jumps in defaults.  Jumps in the program for the defaults of parameters are not set: the
number of the label stays where the machine takes an address from.  Functions with `if` or loops can be
called in the default of a parameter. -/
theorem C79_init_violated :
    (∀ i ∈ jumpy.init, InsOk toyE (jumpy.vars.map (·.name) ++ toyE.std) (labelsOf jumpy.init) i) ∧
    ∃ st, load toyE 20 (write toyE.L jumpy) = .ok st ∧
      st.init = [.cmd "SO_jmp".toList, .num (some 5), .cmd "SO_nop".toList] ∧
      ∀ names all, ¬ Code table (Same toyE names all) jumpy.init st.init := by
  refine ⟨?_, ⟨.code, true, 0, 0, jumpy.vars.map Decl.var, 0, 0,
      [.cmd "SO_jmp".toList, .num (some 5), .cmd "SO_nop".toList], [], []⟩, by decide +kernel, rfl, ?_⟩
  · refine List.forall_mem_cons.mpr ⟨?_, ?_⟩
    · exact ⟨row "jmp" "SO_jmp" [.float], by decide +kernel, rfl, by decide,
        .cons ⟨by decide, toy_label (by decide +kernel), by decide⟩ .nil⟩
    refine List.forall_mem_cons.mpr ⟨toy_label (by decide +kernel), ?_⟩
    exact List.forall_mem_nil _
  · intro names all h
    have key : ∀ (is : List (Ins (Option Nat))) (w : List (Elem (Option Nat))),
        Code table (Same toyE names all) is w → ∀ nm n rest, is = .op nm [.lab n] :: rest →
        ∃ o k, w[1]? = some (.lab o k) := by
      intro is w h
      cases h with
      | nil => intro nm n rest h; cases h
      | label _ => intro nm n rest h; cases h
      | op hr ha _ =>
        intro nm n rest h
        cases h
        cases ha with
        | cons hs _ =>
          cases hs with
          | lab _ => exact ⟨_, _, rfl⟩
    obtain ⟨o, k, hk⟩ := key _ _ h _ _ _ rfl
    simp at hk

/-- A name of 254 characters `a` and another character. -/
def long (c : Char) : Str := List.replicate 254 'a' ++ [c]

/-- A shader with two long names, which uses one of them. -/
def longNames : Shader (Option Nat) where
  type := "surface".toList
  uses := 0
  vars := [⟨.parameter, .uniform, "float".toList, long 'b', none, false⟩,
    ⟨.parameter, .uniform, "float".toList, long 'c', none, false⟩]
  init := []
  code := [.op "pushv".toList [.var (long 'c') false]]

/-- **C79**, long names.  Of names with more than 254 characters the rest is lost, so the second of these
variables is taken for the first. -/
theorem C79_name_violated : longNames.vars[1]?.map (·.name) = some (long 'c') ∧
    ∃ st, load toyE 20 (write toyE.L longNames) = .ok st ∧
      st.code = [.cmd "SO_pushv".toList, .var 0] ∧ getVar 0 = (false, 0) := by
  refine ⟨rfl, ⟨.code, true, 0, 0, [⟨.parameter, .uniform, "float".toList, List.replicate 254 'a', none⟩,
    ⟨.parameter, .uniform, "float".toList, List.replicate 254 'a', none⟩], 0, 0, [],
    [.cmd "SO_pushv".toList, .var 0], []⟩, by decide +kernel, rfl, by decide⟩

/-- A shader with one instruction. -/
def one (i : Ins (Option Nat)) : Shader (Option Nat) where
  type := "surface".toList
  uses := 0
  vars := [⟨.parameter, .uniform, "float".toList, "Ka".toList, none, false⟩]
  init := []
  code := [i]

/-- **C79**, infinite numbers.  A shader with an infinite constant, such as `1e99`, is compiled but not
loaded. -/
theorem C79_infinite_violated :
    load toyE 20 (write toyE.L (one (.op "pushif".toList [.num none]))) = .err := by decide +kernel

/-- **C79**, unknown names.  A name that is not that of a variable is taken for the first variable of the
shader. -/
theorem C79_unknown_violated : ∃ st,
    load toyE 20 (write toyE.L (one (.op "surface".toList [.var "_1$x".toList false]))) = .ok st ∧
      st.vars.map (·.name) = ["Ka".toList] ∧ "_1$x".toList ∉ stdNames ∧
      st.code = [.cmd "SO_surface".toList, .var 0] ∧ getVar 0 = (false, 0) := by
  refine ⟨⟨.code, true, 0, 0, [⟨.parameter, .uniform, "float".toList, "Ka".toList, none⟩], 0, 0, [],
    [.cmd "SO_surface".toList, .var 0], []⟩, by decide +kernel, by decide, by decide, rfl, by decide⟩

/-- **C79**, octal escapes.  The digits 8 and 9 are taken into octal escapes and lost: `\18` is not the
character 1 and the digit 8. -/
theorem C79_octal_violated :
    getString 10 ⟨"\"\\18\"\n".toList, false, false⟩ = some (['\x01'], ⟨['\n'], false, false⟩) := by
  decide +kernel

/-! Files that were cut off -/

/-- A stream at its end, after an attempt to read on. -/
def dead : Stream := ⟨[], true, true⟩

/-- The token at the end of a file. -/
def junk : Str := List.replicate 254 eofChar

theorem dead_token : getToken dead = (junk, dead) := by decide +kernel

theorem dead_decl (st : Storage) (c : Option Class) : ∀ n,
    declLoop toyE.L n junk st c dead = none := by
  intro n
  induction n with
  | zero => rfl
  | succ n ih =>
    have h : ∀ k ∈ ["output".toList, "param".toList, "varying".toList, "uniform".toList],
        toyE.L.same junk k = false := by decide +kernel
    have h2 : ¬ (junk ∈ varTypes ∨ junk ∈ noVarTypes) := by decide +kernel
    rw [declLoop, h _ (by simp), h _ (by simp), h _ (by simp), h _ (by simp), dead_token]
    simp only [Bool.false_eq_true, if_false]
    rw [if_neg h2]
    exact ih

/-- **C79**, files that were cut off.  Loading the beginning of a file, up to a declaration, does not end. -/
theorem C79_cut_violated : ∃ k N, ∀ n, N ≤ n →
    load toyE n ((write toyE.L sample).take k) = .loop := by
  have hE : EnvOk toyE := machine_ok toy 3 7
  obtain ⟨i, _, s1⟩ := type_ok hE (t := "surface".toList) (by decide)
    ("AQSIS_V ".toList ++ (version ++ '\n' :: ("\n\nsegment Data\n\nUSES 393216\n\nparam ".toList)))
    St.start rfl
  generalize ha : ({ St.start with spec := true, type := i } : St (Option Nat)) = a at s1
  have a1 : a.spec = true := by rw [← ha]
  have s2 := version_ok (E := toyE) a1
    (Q_refl ("AQSIS_V ".toList ++ (version ++ '\n' :: ("\n\nsegment Data\n\nUSES 393216\n\nparam ".toList))))
  have sp2 : ∀ {t : Stream} {r : Str}, Q t ('\n' :: '\n' :: r) → Q t r := fun hq =>
    (Q_space (by decide)).mp ((Q_space (by decide)).mp hq)
  obtain ⟨t3, s3, p3⟩ := segment_ok hE (x := "Data".toList) (by simp)
    (s := str ("\n\nsegment Data\n\nUSES 393216\n\nparam ".toList))
    (r := "\nUSES 393216\n\nparam ".toList) (st := a) a1 (sp2 (Q_refl _))
  rw [segment_data] at s3
  have s4 := uses_ok (E := toyE) (s := t3) (st := { a with seg := .data }) (u := 393216)
    (r := "\nparam ".toList) sample_good.uses a1 ((Q_space (c := '\n') (by decide)).mp p3.1)
  obtain ⟨k, N, h⟩ := steps_trans s1 (steps_trans s2 (steps_trans s3 s4))
  refine ⟨53, N + 2 + k, fun n hn => ?_⟩
  obtain ⟨m, rfl⟩ : ∃ m, n = (m + 2) + k := ⟨n - k - 2, by omega⟩
  have e : (⟨(write toyE.L sample).take 53, false, false⟩ : Stream) =
      str ("surface".toList ++ '\n' :: ("AQSIS_V ".toList ++ (version ++ '\n' ::
        ("\n\nsegment Data\n\nUSES 393216\n\nparam ".toList)))) := by decide +kernel
  rw [load, e, h (m + 2) (by omega)]
  have g1 : getToken (str ('\n' :: "\nparam ".toList)) = ("param".toList, str []) :=
    getToken_word word_param (c := ' ') (by decide) (sp2 (Q_refl _))
  have g2 : getToken (str []) = (junk, dead) := by decide +kernel
  have he : (str ('\n' :: "\nparam ".toList)).eof = false := rfl
  have hp : ∀ st : St (Option Nat), st.spec = true → st.seg = .data →
      pass toyE (m + 1) "param".toList (str []) st = .loop := by
    intro st hs hseg
    unfold pass
    have u1 : toyE.L.same "param".toList "USES".toList = false := by decide +kernel
    have u2 : toyE.L.same "param".toList "segment".toList = false := by decide +kernel
    have u3 : "param".toList ≠ "AQSIS_V".toList := by decide
    simp only [hs, if_true, u1, u2, u3, hseg, Bool.false_eq_true, if_false]
    unfold declare
    rw [declLoop_param hE _ _ _ g2, dead_decl]
  rw [loadLoop, he, g1]
  simp only [Bool.false_eq_true, if_false]
  rw [hp { a with seg := .data, uses := 393216 } a1 rfl]

theorem last_found {L : Lib F} {K : Nat} {vars : List Var} {v w : Var} (li : Nat)
    (hv : vars = List.replicate K v ++ [w]) (hh : L.hash v.name ≠ L.hash w.name) :
    cached vars.length (L.isAt (vars.map (·.name)) w.name) li = some K ∧ vars[K]? = some w := by
  have hlast : vars[K]? = some w := by
    rw [hv, List.getElem?_append_right (by simp)]
    simp
  refine ⟨?_, hlast⟩
  have hn : (vars.map (·.name))[K]? = some w.name := by rw [List.getElem?_map, hlast]; rfl
  obtain ⟨j, hj, hp⟩ := cached_ex (n := vars.length)
    (p := L.isAt (vars.map (·.name)) w.name) li (lt_of_some hlast) (isAt_of hn)
  obtain ⟨y, hy, hyh⟩ := isAt_true hp
  have hjj : j = K := by
    have hlt := lt_of_some hy
    rw [List.length_map, hv, List.length_append, List.length_replicate] at hlt
    simp only [List.length_cons, List.length_nil] at hlt
    by_cases h : j < K
    · rw [hv, List.map_append, List.getElem?_append_left (by simpa using h), List.map_replicate,
        List.getElem?_replicate, if_pos h] at hy
      cases hy
      exact absurd hyh hh
    · omega
  rw [hj, hjj]

/-- **C79**, many variables.  The variable with the number 32768 is taken for the first standard variable. -/
theorem C79_many_violated (L : Lib F) (tmp me : Nat) (st : St F) (v w : Var) (hseg : st.seg = .code)
    (hv : st.vars = List.replicate 0x8000 v ++ [w]) (hh : hash64 v.name ≠ hash64 w.name) :
    (addVar (machine L tmp me) w.name st).code = st.code ++ [.var 0x8000] ∧
      getVar 0x8000 = (true, 0) ∧ st.vars[0x8000]? = some w := by
  obtain ⟨h1, h2⟩ := last_found (L := (machine L tmp me).L) st.li hv hh
  refine ⟨?_, by decide, h2⟩
  unfold addVar
  rw [h1]
  clear h1 h2 hv
  cases st with
  | mk seg spec type uses vars li si init code labels =>
    cases hseg
    rfl

example : hash64 "a".toList ≠ hash64 "b".toList := by decide

/-- **C79**, copies.  The jumps of a copy of a shader lead into the program of the shader it was copied
from. -/
theorem C79_clone_violated : ∃ (p : Program (Option Nat)) (b : Nat), b ≠ p.me ∧
    (∀ o k, Elem.lab o k ∈ p.code → o = p.me) ∧
    ∃ o k, Elem.lab o k ∈ (clone b p).code ∧ o ≠ (clone b p).me := by
  refine ⟨⟨7, [], [.cmd "SO_nop".toList, .cmd "SO_jmp".toList, .lab 7 0]⟩, 8, by decide, ?_, 7, 0, by decide,
    by decide⟩
  intro o k h
  simp only [List.mem_cons, reduceCtorEq, List.not_mem_nil, or_false, false_or, Elem.lab.injEq] at h
  exact h.1

end Verif.Shader.Slx
