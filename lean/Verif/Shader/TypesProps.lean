import Verif.Shader.TypesBest

/-
Property C78: an expression which the shader compiler accepts has code in which every instruction
reads values of the kinds that are there.
-/
namespace Verif.Shader.Types

/-- **C78**, the kinds of values.  Let an expression be accepted for the types `ts` (all of them,
for a statement, or types which can be written), let all restrictions of `Fine` hold, let no
assignment within it be used as another type after a call with another result (`Settled`), let no
function with `hpoint` be chosen and only simple arguments follow the parameters of a function
(`Apt`), and let there be instructions for its comparisons and conditional expressions. Then all its
instructions are known, each reads values of the kinds that are there, and a value of one of the
types asked for is on the stack in the end, over what was there before. What is missing are the
cases of the theorems `_violated` below. -/
theorem C78_sound_partial (ts : List Ty) (e e' : Expr) (t' : Ty) (c : List Instr)
    (hts : ts = all ∨ ∀ t ∈ ts, Plain t) (hf : Fine .expr e) (h : check ts e = .ok (t', e'))
    (hs : Settled ts e') (hh : Apt e') (hc : compile ts e = .ok c)
    (hk : ∀ i ∈ c, Compares i → Known i) :
    ∃ t ∈ ts, ∀ st, run c st = .ok (slots t ++ st) := by
  have hc : gen (opt e') = .ok c := by
    unfold compile at hc
    rw [h] at hc
    exact hc
  have hts2 : TsOk ts := by
    rcases hts with h | h
    · exact .inl h
    · exact .inr (fun t ht => .inl (h t ht))
  have hset := (main_sets e).expr hf ts ts (t', e') hts2 (fun _ h => h) h hs hh
  obtain ⟨t, ht, hl, _⟩ := (main_sound e).expr hf ts ts (t', e') (fun _ h => h) h hs hh
  refine ⟨t, ht, hl c hc ?_⟩
  intro i hi
  cases i with
  | set a b => exact hset c hc a b hi
  | rel o a b => exact hk _ hi trivial
  | merge t => exact hk _ hi trivial
  | not t => exact hk _ hi trivial
  | _ => trivial

/-- **C78**, the condition of an `if` or of a loop: a float is left. -/
theorem C78_condition_partial (e e' : Expr) (t' : Ty) (c : List Instr) (hf : Fine .rel e)
    (h : check all e = .ok (t', e')) (hs : Settled [] e') (hh : Apt e')
    (hc : compile all e = .ok c) (hk : ∀ i ∈ c, Compares i → Known i) (st : List Kind) :
    run c st = .ok (.f :: st) := by
  have hc : gen (opt e') = .ok c := by
    unfold compile at hc
    rw [h] at hc
    exact hc
  have hset := (main_sets e).rel hf all (t', e') (.inl rfl) h hs hh
  have hl := (main_sound e).rel hf all (t', e') (.inl rfl) h hs hh
  refine hl.2 c hc ?_ st
  intro i hi
  cases i with
  | set a b => exact hset c hc a b hi
  | rel o a b => exact hk _ hi trivial
  | merge t => exact hk _ hi trivial
  | not t => exact hk _ hi trivial
  | _ => trivial

/-- **C78**, nothing undefined: if every call has functions to choose from, and none of them is
without parameters when there are arguments, the compiler gives code or an error message. -/
theorem C78_defined_partial (ts : List Ty) (e : Expr) (hf : Fine .expr e ∨ Fine .rel e)
    (hs : Safe e) : compile ts e = .err ∨ ∃ c, compile ts e = .ok c := by
  obtain ⟨h1, h2⟩ := (main_safe e).node hf hs ts
  unfold compile
  cases h : check ts e with
  | err => exact .inl rfl
  | ub => exact absurd h h1
  | ok r =>
    obtain ⟨⟨c, hc⟩, _⟩ := h2 r h
    exact .inr ⟨c, hc⟩

/-- **C78**, the choice of a function: for arguments which are constants, variables, or calls to any
depth, a function is chosen which can be called with the types that the arguments have by themselves,
which does best, and which is the first such. -/
theorem C78_best (ts us : List Ty) (fs : List Func) (args : Expr) (r : Ty × Expr) (hn : Ty.nil ∉ ts)
    (hr : ∀ g ∈ fs, g.ret ≠ .nil) (ha : TypesOf args us) (h : check ts (.call fs args) = .ok r) :
    ∃ g l t x, r = (g.ret, .cast t (.call (g :: l) x)) ∧ Best ts us fs g := by
  cases fs with
  | nil => simp [check] at h
  | cons f fs =>
    simp only [check] at h
    obtain ⟨as, has, h⟩ := bind_ok h
    obtain ⟨as', has', gas⟩ := (valid_types args).2 us ha
    rw [has'] at has
    injection has with has
    subst has
    obtain ⟨⟨x1, x2⟩, hx, h⟩ := bind_ok h
    cases x2 with
    | none => simp at h
    | some b =>
      simp only at h
      obtain ⟨ra, hra, h⟩ := bind_ok h
      injection h with h
      rw [select_congr ts gas] at hx
      have hne : x1 ≠ [] := by
        rcases select_some _ _ _ _ _ _ hx with h1 | ⟨_, h2, _⟩
        · simp at h1
        · intro h0; subst h0; simp at h2
      cases x1 with
      | nil => exact absurd rfl hne
      | cons y ys =>
        refine ⟨b.1, ys, findCast b.1.ret ts, ra.2, ?_, select_is_best ts us _ _ _ hn hr hx⟩
        rw [← h]
        simp only [List.set_cons_zero]

/-- The types of expressions that can be written. -/
def plain : List Ty := [.float, .string, .point, .color, .normal, .vector, .matrix]

/-- **C78**, comparisons: two variables can be compared whenever there is a type to which both can be
converted, and then both are converted to one such type, by the casts which are needed. -/
theorem C78_compare : ∀ a ∈ plain, ∀ b ∈ plain,
    (compile all (.rel .eq (.var a) (.var b)) = .err ∧
      ∀ t ∈ all, ¬((a = t ∨ pri a t ≠ 0) ∧ (b = t ∨ pri b t ≠ 0))) ∨
    ∃ t ∈ all, (a = t ∨ pri a t ≠ 0) ∧ (b = t ∨ pri b t ≠ 0) ∧
      compile all (.rel .eq (.var a) (.var b)) = .ok
        (([.push a] ++ if a = t ∨ (pointLike a ∧ pointLike t) then [] else [.set a t]) ++
          (([.push b] ++ if b = t ∨ (pointLike b ∧ pointLike t) then [] else [.set b t]) ++
            [.rel .eq t t])) := by
  decide +kernel

/-- **C78**, a function with just the types of the arguments and a result which is asked for: such
a one is chosen, and no casts are written. -/
theorem C78_exact (ts us : List Ty) (fs : List Func) (g : Func) (hus : ∀ t ∈ us, Plain t)
    (hn : Ty.nil ∉ ts) (hr : ∀ f ∈ fs, f.ret ≠ .nil)
    (hz : ∀ f ∈ fs, f.params = [] → f.dots = false → us = []) (hg : g ∈ fs) (hp : g.params = us)
    (hret : g.ret ∈ ts) :
    ∃ g' ∈ fs, g'.params = us ∧ g'.ret ∈ ts ∧ compile ts (.call fs (vars us)) =
      .ok ((us.map Instr.push).reverse ++
        ((if g'.dots then [.push .float] else []) ++ [.fn g' 0])) := by
  cases fs with
  | nil => simp at hg
  | cons f fs =>
    obtain ⟨⟨x1, x2⟩, hx⟩ := select_ok ts (us.map casts) (f :: fs) none
      (fun q hq h1 h2 => by rw [hz q hq h1 h2]; rfl)
    have hfit : Fits ts us g := by
      refine ⟨.inl (by rw [hp]), ⟨g.ret, hret, .inl rfl⟩, ?_⟩
      intro x hx
      rw [hp] at hx
      exact .inl (zip_self us x hx)
    have hfits := (consider_vars ts us g _ (hr g hg) hn).mpr ⟨hfit, rfl⟩
    have hsc : score ts us g = 1 + 99 * us.length := by
      unfold score
      rw [if_pos hret, hp]
      rw [score_self]
    cases x2 with
    | none => exact absurd hfits ((select_none _ _ _ _ _ hx).2 g hg _)
    | some b =>
      rcases select_best _ _ _ _ _ _ hx with ⟨h1, _⟩ | ⟨pre, post, h1, h2, _, h4, h5⟩
      · simp at h1
      · have hb : b.1 ∈ f :: fs := by rw [h1]; simp
        obtain ⟨k1, k2⟩ := (consider_vars ts us b.1 b.2 (hr _ hb) hn).mp h2
        have hge : score ts us g ≤ b.2 := by
          rw [h1] at hg
          simp only [List.mem_append, List.mem_cons] at hg
          rcases hg with hg | hg | hg
          · exact Nat.le_of_lt (h4 g hg _ hfits)
          · rw [k2, hg]; exact Nat.le_refl _
          · exact h5 g hg _ hfits
        have hlen : b.1.params.length ≤ us.length := by
          rcases k1.1 with h | h
          · omega
          · exact h.2
        obtain ⟨s1, s2⟩ := score_le us b.1.params hus
        have hbs := k2
        unfold score at hbs
        have hin : b.1.ret ∈ ts := by
          refine Decidable.byContradiction fun hc => ?_
          rw [if_neg hc] at hbs
          have : 99 * b.1.params.length ≤ 99 * us.length := Nat.mul_le_mul_left 99 hlen
          omega
        rw [if_pos hin] at hbs
        have hpar : b.1.params = us := by
          apply s2 _ hlen
          have : 99 * b.1.params.length ≤ 99 * us.length := Nat.mul_le_mul_left 99 hlen
          omega
        have hne : x1 ≠ [] := by
          rcases select_some _ _ _ _ _ _ hx with h1 | ⟨_, h2, _⟩
          · simp at h1
          · intro h0; subst h0; simp at h2
        cases x1 with
        | nil => exact absurd rfl hne
        | cons y ys =>
          refine ⟨b.1, hb, hpar, hin, ?_⟩
          unfold compile
          simp only [check, valids_vars, hx, Res.bind]
          rw [hpar, check_vars]
          simp only [(findCast_self b.1.ret ts (hr _ hb)).mpr hin, List.set_cons_zero]
          have ho : opt (.cast b.1.ret (.call (b.1 :: ys) (vars us))) = .call (b.1 :: ys) (vars us) := by
            simp [opt, opt_vars, resType]
          rw [ho]
          simp only [gen, gen_vars, Res.bind, vars_len, hpar, Nat.sub_self]

/-- The functions "operator*" (libs/slcomp/parse/funcdef.cpp:38, 44, 52, 58, 66, 74, 79, 84, 89,
94). -/
def mul : List Func :=
  [⟨.float, [.float, .float], false, none, "mulff"⟩,
   ⟨.point, [.point, .point], false, none, "mulpp"⟩,
   ⟨.color, [.color, .color], false, none, "mulcc"⟩,
   ⟨.vector, [.vector, .vector], false, none, "mulpp"⟩,
   ⟨.normal, [.normal, .normal], false, none, "mulpp"⟩,
   ⟨.point, [.float, .point], false, none, "mulfp"⟩,
   ⟨.color, [.float, .color], false, none, "mulfc"⟩,
   ⟨.vector, [.float, .vector], false, none, "mulfp"⟩,
   ⟨.normal, [.float, .normal], false, none, "mulfp"⟩,
   ⟨.matrix, [.matrix, .matrix], false, none, "mulmm"⟩]

/-- The functions "min" (funcdef.cpp:114, 116, 118, 120, 122). -/
def mins : List Func :=
  [⟨.float, [.float, .float], true, some .float, "min"⟩,
   ⟨.point, [.point, .point], true, some .point, "pmin"⟩,
   ⟨.vector, [.vector, .vector], true, some .vector, "vmin"⟩,
   ⟨.normal, [.normal, .normal], true, some .normal, "nmin"⟩,
   ⟨.color, [.color, .color], true, some .color, "cmin"⟩]

/-- "printf" (funcdef.cpp:231). -/
def printf : List Func := [⟨.void, [.string], true, none, "printf"⟩]

/-- The functions "shadername" (funcdef.cpp:322-323). -/
def shadername : List Func :=
  [⟨.string, [.string], false, none, "shadername2"⟩, ⟨.string, [], false, none, "shadername"⟩]

/-- A call with two arguments. -/
def call2 (fs : List Func) (a b : Expr) : Expr := .call fs (.cons a (.cons b .nil))

/-- The arguments of `x * sqrt(y)` have types. -/
example : TypesOf (.cons (.var .float) (.cons (.call [⟨.float, [.float], false, none, "sqrt"⟩]
    (.cons (.var .float) .nil)) .nil)) [.float, .float] := by
  refine ⟨.float, [.float], rfl, rfl, .float, [], rfl, ⟨by simp, [.float], _,
    ⟨.float, [], rfl, rfl, rfl⟩, ⟨[], [], rfl, ?_, by simp, by simp⟩, rfl, by simp⟩, rfl⟩
  refine ⟨.inl rfl, ⟨.float, by decide, .inl rfl⟩, ?_⟩
  intro x hx
  simp only [List.zip_cons_cons, List.zip_nil_right, List.mem_singleton] at hx
  subst hx
  exact .inl rfl

/-- `c = x * d` is accepted, with "mulfc"; the code of `c = x * x` has a cast. -/
example : compile all (.assign .color (call2 mul (.var .float) (.var .color))) =
    .ok [.push .color, .push .float, .fn ⟨.color, [.float, .color], false, none, "mulfc"⟩ 0, .dup,
      .pop .color] := by decide +kernel

example : compile all (.assign .color (call2 mul (.var .float) (.var .float))) =
    .ok [.push .float, .push .float, .fn ⟨.float, [.float, .float], false, none, "mulff"⟩ 0,
      .set .float .color, .dup, .pop .color] := by decide +kernel

/-- `c = x * min(x, 1, x)`. -/
def sample : Expr :=
  .assign .color (call2 mul (.var .float)
    (.call mins (.cons (.var .float) (.cons .num (.cons (.var .float) .nil)))))

/-- Its code. -/
def sampleCode : List Instr :=
  [.push .float, .push .float, .push .float, .push .float,
    .fn ⟨.float, [.float, .float], true, some .float, "min"⟩ 1, .push .float,
    .fn ⟨.float, [.float, .float], false, none, "mulff"⟩ 0, .set .float .color, .dup, .pop .color]

/-- What the check makes of it. -/
def sampleChecked : Expr :=
  .assign .color (.cast .color (.call
    (⟨.float, [.float, .float], false, none, "mulff"⟩ :: mul.tail)
    (.cons (.var .float) (.cons (.cast .float (.call mins
      (.cons (.var .float) (.cons .num (.cons (.var .float) .nil))))) .nil))))

/-- The conditions of `C78_sound_partial` hold for it. -/
example : ∃ t ∈ all, ∀ st, run sampleCode st = .ok (slots t ++ st) := by
  refine C78_sound_partial all sample sampleChecked .nil sampleCode (.inl rfl) ?_ ?_ ?_ ?_ ?_ ?_
  · simp [Fine, sample, call2, mul, mins, Plain]
  · decide +kernel
  · simp [Settled, sampleChecked, mins, all]
  · simp [Apt, sampleChecked, mins, SimpleAfter, Simple, Plain]
  · decide +kernel
  · intro i hi hcmp
    simp only [sampleCode, List.mem_cons, List.not_mem_nil, or_false] at hi
    rcases hi with h | h | h | h | h | h | h | h | h | h <;> subst h <;> simp [Compares] at hcmp

/-- **C78**, undefined behaviour in the compiler: for `shadername("surface")`, which is a call of
the first of two functions, the types of the parameters of the other one are read after their
end. -/
theorem C78_zero_ub :
    check all (.call shadername (.cons .str .nil)) = .ub := by decide +kernel

/-- **C78**, violated: the arguments after the parameters of a function with `...` get no casts, and
calls among them are not decided.  In `printf("%c", c * 2)` the color and the number are multiplied
as points, and `min(1, 2, c)` is accepted though "min" then reads a color as a number. -/
theorem C78_dots_violated :
    (∃ c, compile all (.call printf (.cons .str (.cons (call2 mul (.var .color) .num) .nil))) =
        .ok c ∧ run c [] = .wrong) ∧
    ∃ c, compile all (.call mins (.cons .num (.cons .num (.cons (.var .color) .nil)))) = .ok c ∧
      run c [] = .wrong :=
  ⟨⟨[.push .float, .push .color, .fn ⟨.point, [.point, .point], false, none, "mulpp"⟩ 0,
      .push .string, .push .float, .fn ⟨.void, [.string], true, none, "printf"⟩ 1],
      by decide +kernel, by decide +kernel⟩,
    [.push .color, .push .float, .push .float, .push .float,
      .fn ⟨.float, [.float, .float], true, some .float, "min"⟩ 1],
    by decide +kernel, by decide +kernel⟩

/-- The relation `x > 0`. -/
def positive : Expr := .rel .gt .num (.var .float)

example : Fine .rel positive := by simp [Fine, positive, Plain, IsCond]

/-- **C78**, violated: there is no instruction for `!`. -/
theorem C78_not_violated :
    compile all (.not positive) =
      .ok [.push .float, .push .float, .rel .gt .float .float, .not .float] ∧
    run [.push .float, .push .float, .rel .gt .float .float, .not .float] [] = .unknown :=
  ⟨by decide +kernel, by decide +kernel⟩

/-- **C78**, violated: a conditional expression says it has the type of its condition.  With a cast,
as in `color (x > 0 ? c : d)` or when it is what a function returns, the color is read as a number;
within another one, it is merged as a number. -/
theorem C78_cond_violated :
    (∃ c, compile all (.cast .color (.cond positive (.var .color) (.var .color))) = .ok c ∧
      run c [] = .wrong) ∧
    ∃ c, compile all (.assign .color (.cond positive
        (.cond positive (.var .color) (.var .color)) (.var .color))) = .ok c ∧
      run c [] = .wrong :=
  ⟨⟨[.push .float, .push .float, .rel .gt .float .float, .dup, .test, .push .color, .push .color,
      .merge .color, .set .float .color], by decide +kernel, by decide +kernel⟩,
    [.push .float, .push .float, .rel .gt .float .float, .dup, .test, .push .float, .push .float,
      .rel .gt .float .float, .dup, .test, .push .color, .push .color, .merge .color,
      .push .color, .merge .float, .dup, .pop .color], by decide +kernel, by decide +kernel⟩

/-- **C78**, violated: an assignment of a call with another type gives back no type and gets no
cast; in `P = (c = x * x)` the color is read as a point. -/
theorem C78_assign_violated :
    ∃ c, compile all (.assign .point (.assign .color (call2 mul (.var .float) (.var .float)))) =
      .ok c ∧ run c [] = .wrong :=
  ⟨[.push .float, .push .float, .fn ⟨.float, [.float, .float], false, none, "mulff"⟩ 0,
      .set .float .color, .dup, .pop .color, .dup, .pop .point],
    by decide +kernel, by decide +kernel⟩

/-- **C78**, violated: comparisons of matrices, strings by order, and conditional expressions with
matrices are accepted, but there are no instructions for them. -/
theorem C78_compare_violated :
    (∃ c, compile all (.rel .eq (.var .matrix) (.var .matrix)) = .ok c ∧ run c [] = .unknown) ∧
    (∃ c, compile all (.rel .lt (.var .string) (.var .string)) = .ok c ∧ run c [] = .unknown) ∧
    ∃ c, compile all (.assign .matrix (.cond positive (.var .matrix) .num)) = .ok c ∧
      run c [] = .unknown :=
  ⟨⟨[.push .matrix, .push .matrix, .rel .eq .matrix .matrix], by decide +kernel,
      by decide +kernel⟩,
    ⟨[.push .string, .push .string, .rel .lt .string .string], by decide +kernel,
      by decide +kernel⟩,
    [.push .float, .push .float, .rel .gt .float .float, .dup, .test, .push .matrix, .push .float,
      .set .float .matrix, .merge .matrix, .dup, .pop .matrix], by decide +kernel,
    by decide +kernel⟩

/-- **C78**, violated: a right expression is rejected.  In `(x > 0 ? c : d) * e` the conditional
expression counts as a number, a function for that is chosen, and then it is found to be none. -/
theorem C78_reject_violated :
    compile all (call2 mul (.cond positive (.var .color) (.var .color)) (.var .color)) = .err ∧
    ∃ c, compile all (call2 mul (.var .color) (.var .color)) = .ok c :=
  ⟨by decide +kernel, _, rfl⟩

/-- The function which was chosen for a call. -/
def chosen (r : Res (Ty × Expr)) : Option Func :=
  match r with
  | .ok (_, .cast _ (.call (g :: _) _)) => some g
  | _ => none

/-- The functions with `hpoint` together with the others of their names (funcdef.cpp:142-159,
179-190, 193-194, 205-206): "Du", "xcomp", "area", "calculatenormal" and "Deriv"; "Dv", "ycomp"
and "zcomp" have the same types as the first two. -/
def hFunctions : List (List Func) :=
  [[⟨.float, [.float], false, none, "fDu"⟩, ⟨.color, [.color], false, none, "cDu"⟩,
    ⟨.point, [.point], false, none, "pDu"⟩, ⟨.hpoint, [.hpoint], false, none, "hDu"⟩,
    ⟨.normal, [.normal], false, none, "nDu"⟩, ⟨.vector, [.vector], false, none, "vDu"⟩],
   [⟨.float, [.point], false, none, "xcomp"⟩, ⟨.float, [.hpoint], false, none, "xcomp"⟩,
    ⟨.float, [.normal], false, none, "xcomp"⟩, ⟨.float, [.vector], false, none, "xcomp"⟩],
   [⟨.float, [.point], false, none, "area"⟩, ⟨.float, [.hpoint], false, none, "area"⟩],
   [⟨.point, [.point], false, none, "calculatenormal"⟩,
    ⟨.point, [.hpoint], false, none, "calculatenormal"⟩],
   [⟨.float, [.float, .float], false, none, "fDeriv"⟩,
    ⟨.color, [.color, .float], false, none, "cDeriv"⟩,
    ⟨.point, [.point, .float], false, none, "pDeriv"⟩,
    ⟨.hpoint, [.hpoint, .float], false, none, "hDeriv"⟩,
    ⟨.normal, [.normal, .float], false, none, "nDeriv"⟩,
    ⟨.vector, [.vector, .float], false, none, "vDeriv"⟩]]

/-- **C78**, `hpoint`: for variables of the types which can be written and for triples, whatever is
asked for, the functions with `hpoint` are never chosen. -/
theorem C78_hpoint_partial : ∀ fs ∈ hFunctions,
    ∀ ts ∈ all :: all.map (fun t => [t]),
    ∀ a ∈ [Expr.var .float, .var .point, .var .string, .var .color, .var .normal, .var .vector,
      .var .matrix, .triple .num .num .num],
    ∀ rest ∈ [Expr.nil, .cons .num .nil],
    ∀ g ∈ chosen (check ts (.call fs (.cons a rest))), g.ret ≠ .hpoint ∧ Ty.hpoint ∉ g.params := by
  decide +kernel

example : ((chosen (check all (.call (hFunctions.getD 0 []) (.cons (.var .normal) .nil)))).map
    (·.name)) = some "nDu" := by decide +kernel

/-- `C78_exact` applies, e.g. to the product of two vectors. -/
example : ∃ g' ∈ mul, g'.params = [.vector, .vector] ∧ g'.ret ∈ all ∧
    compile all (.call mul (vars [.vector, .vector])) =
      .ok (([Ty.vector, .vector].map Instr.push).reverse ++
        ((if g'.dots then [.push .float] else []) ++ [.fn g' 0])) :=
  C78_exact all [.vector, .vector] mul ⟨.vector, [.vector, .vector], false, none, "mulpp"⟩
    (by decide) (by decide) (by decide) (by decide) (by decide) rfl (by decide)

/-- `C78_best` applies, e.g. to the product of a vector and a float. -/
example : ∃ r, check all (.call mul (vars [.vector, .float])) = .ok r := ⟨_, rfl⟩

/-- `C78_defined_partial` applies, e.g. to a product. -/
example : Safe (call2 mul (.var .float) (.var .color)) := by
  simp [Safe, call2, mul, Expr.len]

end Verif.Shader.Types
