import Verif.Shader.ScopeRun
import Mathlib.Data.Nat.ModEq
import Mathlib.Data.Int.GCD
import Mathlib.Tactic.Ring
/-!
# C77: names of variables and functions in shaders
-/

namespace Verif.Shader.Scope

/-- The words that are hashed: names of the file, after the name of any of its scopes once or twice,
and the standard names. -/
def words (std : List Str) (es : List Ev) : List Str :=
  std ++ ([] :: paths [] 0 es).flatMap (fun u =>
    (idents es).flatMap (fun x => [full u ++ x, full u ++ full u ++ x]))

theorem mem_words {std : List Str} {es : List Ev} {u : Path} {x : Str}
    (hu : u = [] ∨ u ∈ paths [] 0 es) (hx : x ∈ idents es) :
    full u ++ x ∈ words std es ∧ full u ++ full u ++ x ∈ words std es := by
  have : u ∈ [] :: paths [] 0 es := by
    rcases hu with rfl | hu
    · simp
    · simp [hu]
  constructor
  · exact List.mem_append_right _ (List.mem_flatMap.2 ⟨u, this, List.mem_flatMap.2
      ⟨x, hx, by simp⟩⟩)
  · exact List.mem_append_right _ (List.mem_flatMap.2 ⟨u, this, List.mem_flatMap.2
      ⟨x, hx, by simp⟩⟩)

/-- C77: **a name means the innermost declaration of it**: all uses, calls, declarations and `extern`
find what they should, and every declaration makes a new variable.  (Missing: redeclaration of a name
of the same function, scopes with names that end in a digit, and equal hashes; see the violations.) -/
theorem C77_names_partial (h : Str → Nat) (std stdF : List Str) (es : List Ev)
    (hstd : ∀ n ∈ std, Ident n) (hstdF : ∀ n ∈ stdF, Ident n)
    (hash : ∀ a ∈ words std es, ∀ b ∈ words std es, h a = h b → a = b)
    (ok : AllFine std stdF Env.empty es) :
    run h std stdF St.start es = meansAll std stdF Env.empty es := by
  apply run_sim (W := fun w => w ∈ words std es)
    ⟨fun a b ha hb => hash a ha b hb, fun n hn => ⟨List.mem_append_left _ hn, hstd n hn⟩, hstdF⟩
    (fun u => u = [] ∨ u ∈ paths [] 0 es) es _ _ _ _ _ (start_rel _ _) ok
  · rintro u v hv
    left
    cases u with
    | nil => rfl
    | cons c u => simp at hv
  · exact fun q hq => Or.inr hq
  · intro u x hu hx
    exact mem_words hu hx

/-- C77: with names compared instead of hashes there is no condition on hashes: `key` is any way to
number names. -/
theorem C77_compare_partial (key : Str → Nat) (hk : ∀ a b, key a = key b → a = b)
    (std stdF : List Str) (es : List Ev)
    (hstd : ∀ n ∈ std, Ident n) (hstdF : ∀ n ∈ stdF, Ident n) (ok : AllFine std stdF Env.empty es) :
    run key std stdF St.start es = meansAll std stdF Env.empty es :=
  C77_names_partial key std stdF es hstd hstdF (fun a _ b _ => hk a b) ok

/-- The variables that the declarations of a file find. -/
def declared : List Ev → List Out → List (Option Ref)
  | .decl _ :: es, .var r :: os => r :: declared es os
  | _ :: es, _ :: os => declared es os
  | _, _ => []

theorem meansAll_declared (std stdF : List Str) (es : List Ev) : ∀ (E : Env) (os : List Out),
    meansAll std stdF E es = some os →
      (declared es os).Nodup ∧ ∀ r ∈ declared es os, ∃ k, E.nvars ≤ k ∧ r = some (.loc k) := by
  induction es with
  | nil => intro E os _; cases os <;> simp [declared]
  | cons e es ih =>
    intro E os ho
    unfold meansAll at ho
    cases hm : means std stdF E e with
    | none => rw [hm] at ho; cases ho
    | some a =>
      obtain ⟨E', o⟩ := a
      rw [hm] at ho
      simp only at ho
      cases hr : meansAll std stdF E' es with
      | none => rw [hr] at ho; cases ho
      | some os' =>
        rw [hr] at ho
        simp only [Option.map_some, Option.some.injEq] at ho
        subst ho
        obtain ⟨h1, h2⟩ := ih E' os' hr
        have keep : ∀ (E' : Env), E.nvars ≤ E'.nvars →
            (∀ r ∈ declared es os', ∃ k, E'.nvars ≤ k ∧ r = some (.loc k)) →
            ∀ r ∈ declared es os', ∃ k, E.nvars ≤ k ∧ r = some (.loc k) := by
          intro E' hle h2 r hr
          obtain ⟨k, hk, e⟩ := h2 r hr
          exact ⟨k, Nat.le_trans hle hk, e⟩
        have hb : ∀ (x : Str) (r : Ref), (E.bind x r).nvars = E.nvars + 1 := by
          intro x r
          unfold Env.bind
          cases E.frames <;> rfl
        cases e with
        | decl x =>
          simp only [means, Option.some.injEq, Prod.mk.injEq] at hm
          obtain ⟨rfl, rfl⟩ := hm
          rw [hb] at h2
          refine ⟨List.nodup_cons.2 ⟨?_, h1⟩, ?_⟩
          · intro hmem
            obtain ⟨k, hk, e⟩ := h2 _ hmem
            simp only [Option.some.injEq, Ref.loc.injEq] at e
            omega
          · intro r hr
            rcases List.mem_cons.1 hr with rfl | hr
            · exact ⟨_, Nat.le_refl _, rfl⟩
            · obtain ⟨k, hk, e⟩ := h2 r hr
              exact ⟨k, by omega, e⟩
        | ext x =>
          refine ⟨h1, keep E' ?_ h2⟩
          have hm : (outerVar std E x).map (fun r => (E.bind x r, Out.done)) = some (E', o) := hm
          cases ho : outerVar std E x with
          | none => rw [ho] at hm; cases hm
          | some r =>
            rw [ho] at hm
            simp only [Option.map_some, Option.some.injEq, Prod.mk.injEq] at hm
            rw [← hm.1, hb]
            omega
        | use x =>
          simp only [means, Option.some.injEq, Prod.mk.injEq] at hm
          exact ⟨h1, keep E' (by rw [← hm.1]) h2⟩
        | call x =>
          simp only [means, Option.some.injEq, Prod.mk.injEq] at hm
          exact ⟨h1, keep E' (by rw [← hm.1]) h2⟩
        | block =>
          simp only [means, Option.some.injEq, Prod.mk.injEq] at hm
          exact ⟨h1, keep E' (by rw [← hm.1]) h2⟩
        | func x =>
          simp only [means, Option.some.injEq, Prod.mk.injEq] at hm
          exact ⟨h1, keep E' (by rw [← hm.1]) h2⟩
        | leave =>
          refine ⟨h1, keep E' ?_ h2⟩
          unfold means at hm
          rcases hf : E.frames with _ | ⟨f, fr⟩
          · rw [hf] at hm; cases hm
          · rw [hf] at hm
            simp only at hm
            rcases hg : f.fn with _ | g
            · rw [hg] at hm
              simp only [Option.some.injEq, Prod.mk.injEq] at hm
              rw [← hm.1]
            · rw [hg] at hm
              simp only [Option.some.injEq, Prod.mk.injEq] at hm
              rw [← hm.1]
              unfold Env.bindF
              cases fr <;> simp

/-- C77: **every declaration has a variable of its own**, also those in scopes that are closed. -/
theorem C77_distinct_partial (h : Str → Nat) (std stdF : List Str) (es : List Ev)
    (hstd : ∀ n ∈ std, Ident n) (hstdF : ∀ n ∈ stdF, Ident n)
    (hash : ∀ a ∈ words std es, ∀ b ∈ words std es, h a = h b → a = b)
    (ok : AllFine std stdF Env.empty es) (os : List Out)
    (hr : run h std stdF St.start es = some os) :
    (declared es os).Nodup ∧ ∀ r ∈ declared es os, ∃ k, r = some (.loc k) := by
  rw [C77_names_partial h std stdF es hstd hstdF hash ok] at hr
  obtain ⟨h1, h2⟩ := meansAll_declared std stdF es _ _ hr
  exact ⟨h1, fun r hr => by obtain ⟨k, -, e⟩ := h2 r hr; exact ⟨k, e⟩⟩

/-- C77: an identifier that is read just before a block is opened means the same as inside. -/
theorem C77_lookahead (std stdF : List Str) (E : Env) (x : Str) :
    meaning std { E with frames := ⟨none, [], []⟩ :: E.frames } x = meaning std E x ∧
      meaningF stdF { E with frames := ⟨none, [], []⟩ :: E.frames } x = meaningF stdF E x := by
  constructor
  · rw [meaning_or, meaning_or, near_or]
    simp only [List.lookup, Option.none_or]
    rfl
  · rfl

/-! ## Hashes -/

theorem fold_append (M : Nat) (b : Str) : ∀ (r : Nat),
    b.foldl (fun r c => (r * 31 + c.toNat) % M) r ≡
      r * 31 ^ b.length + b.foldl (fun r c => (r * 31 + c.toNat) % M) 0 [MOD M] := by
  induction b with
  | nil => intro r; simp [Nat.ModEq]
  | cons c b ih =>
    have one : ∀ r : Nat, (c :: b).foldl (fun r c => (r * 31 + c.toNat) % M) r ≡
        (r * 31 + c.toNat) * 31 ^ b.length +
          b.foldl (fun r c => (r * 31 + c.toNat) % M) 0 [MOD M] := by
      intro r
      rw [List.foldl_cons]
      exact (ih _).trans (((Nat.mod_modEq _ _).mul_right _).add_right _)
    intro r
    refine (one r).trans ?_
    refine Nat.ModEq.trans ?_ ((one 0).symm.add_left _)
    rw [List.length_cons, Nat.pow_succ]
    show _ % M = _ % M
    congr 1
    ring

theorem hash_append (a b : Str) : hash (a ++ b) % 2 ^ 64 =
    (hash a * 31 ^ b.length + hash b) % 2 ^ 64 := by
  have := fold_append (2 ^ 64) b (hash a)
  unfold hash at this ⊢
  rw [List.foldl_append]
  exact this

theorem hash_lt (a : Str) : hash a < 2 ^ 64 := by
  unfold hash
  rcases List.eq_nil_or_concat a with rfl | ⟨l, c, rfl⟩
  · simp
  · rw [List.concat_eq_append, List.foldl_append]
    exact Nat.mod_lt _ (by decide)

/-- C77: the same name in two scopes has the same hash exactly if the scopes have. -/
theorem C77_hash_scope (a a' b : Str) : hash (a ++ b) = hash (a' ++ b) ↔ hash a = hash a' := by
  have h1 := hash_append a b
  have h2 := hash_append a' b
  rw [Nat.mod_eq_of_lt (hash_lt _)] at h1 h2
  rw [h1, h2]
  constructor
  · intro h
    have h3 : hash a * 31 ^ b.length ≡ hash a' * 31 ^ b.length [MOD 2 ^ 64] :=
      Nat.ModEq.add_right_cancel' (hash b) h
    have h4 : hash a ≡ hash a' [MOD 2 ^ 64] := by
      apply Nat.ModEq.cancel_right_of_coprime _ h3
      apply Nat.Coprime.pow
      decide
    unfold Nat.ModEq at h4
    rwa [Nat.mod_eq_of_lt (hash_lt _), Nat.mod_eq_of_lt (hash_lt _)] at h4
  · intro h
    rw [h]

/-- C77: two names of the same length in one scope have the same hash exactly if they have by
themselves. -/
theorem C77_hash_name (a b b' : Str) (hl : b.length = b'.length) :
    hash (a ++ b) = hash (a ++ b') ↔ hash b = hash b' := by
  have h1 := hash_append a b
  have h2 := hash_append a b'
  rw [Nat.mod_eq_of_lt (hash_lt _)] at h1 h2
  rw [h1, h2, hl]
  constructor
  · intro h
    have h3 : hash b ≡ hash b' [MOD 2 ^ 64] := Nat.ModEq.add_left_cancel' _ h
    unfold Nat.ModEq at h3
    rwa [Nat.mod_eq_of_lt (hash_lt _), Nat.mod_eq_of_lt (hash_lt _)] at h3
  · intro h
    rw [h]

/-- C77: names that differ in one letter have different hashes. -/
theorem C77_hash_letter (a b : Str) (c d : Char) (h : c ≠ d) :
    hash (a ++ c :: b) ≠ hash (a ++ d :: b) := by
  intro he
  have e : ∀ c : Char, a ++ c :: b = (a ++ [c]) ++ b := by simp
  rw [e c, e d, C77_hash_scope, C77_hash_name a [c] [d] rfl] at he
  have hv : ∀ c : Char, hash [c] = c.toNat := by
    intro c
    have : c.toNat < 2 ^ 64 := by
      have := c.val.toNat_lt
      show c.val.toNat < _
      omega
    show (0 * 31 + c.toNat) % 2 ^ 64 = c.toNat
    rw [Nat.zero_mul, Nat.zero_add, Nat.mod_eq_of_lt this]
  rw [hv, hv] at he
  exact h (Char.toNat_inj.1 he)

/-! ## Examples -/

/-- A file with a function `f` (with a parameter `a`, a block with a local `b`, a nested function `g`
that uses `extern a`), and a shader with a parameter `s` (also a standard variable) and a local `a`. -/
def exEs : List Ev :=
  [.func ['f'], .decl ['a'], .func ['g'], .ext ['a'], .use ['a'], .leave, .block, .decl ['b'],
   .use ['b'], .use ['a'], .call ['g'], .leave, .use ['b'], .use ['P'], .leave,
   .decl ['s'], .use ['s'], .decl ['a'], .use ['a'], .call ['f'], .call ['g']]

theorem exFine : AllFine [['P'], ['s']] [['n']] Env.empty exEs := by
  simp [AllFine, exEs, Fine, means, NewName, near, nearFuncs, Ident, ScopeName, meaning, fileVar,
    meaningF, indices, Env.empty, Env.bind, Env.bindF, outerVar, far, Frame.named, List.lookup]

theorem exHash : ∀ a ∈ words [['P'], ['s']] exEs, ∀ b ∈ words [['P'], ['s']] exEs,
    hash a = hash b → a = b := by
  decide +kernel

/-- The theorem applies to it. -/
example : run hash [['P'], ['s']] [['n']] St.start exEs =
    meansAll [['P'], ['s']] [['n']] Env.empty exEs :=
  C77_names_partial hash _ _ _ (by simp [Ident]) (by simp [Ident]) exHash exFine

/-- What it finds: the parameter is variable 0, the local of the block 2, the shader has 3 and 4. -/
example : run hash [['P'], ['s']] [['n']] St.start exEs = some
    [.done, .var (some (.loc 0)), .done, .done, .var (some (.loc 0)), .done, .done,
     .var (some (.loc 2)), .var (some (.loc 2)), .var (some (.loc 0)), .funcs [.loc 0], .done,
     .var none, .var (some (.std 0)), .done,
     .var (some (.loc 3)), .var (some (.loc 3)), .var (some (.loc 4)), .var (some (.loc 4)),
     .funcs [.loc 1], .funcs []] := by
  decide +kernel

/-! ## Violations -/

/-- C77: **two variables with the same hash are one**: `float Aa; float BB;`. -/
theorem C77_hash_violated :
    hash ['A', 'a'] = hash ['B', 'B'] ∧
      run hash [] [] St.start [.decl ['A', 'a'], .decl ['B', 'B'], .use ['A', 'a'], .use ['B', 'B']] =
        some [.var (some (.loc 0)), .var (some (.loc 0)), .var (some (.loc 0)),
          .var (some (.loc 0))] ∧
      meansAll [] [] Env.empty
          [.decl ['A', 'a'], .decl ['B', 'B'], .use ['A', 'a'], .use ['B', 'B']] =
        some [.var (some (.loc 0)), .var (some (.loc 1)), .var (some (.loc 0)),
          .var (some (.loc 1))] := by
  decide +kernel

/-- C77: **a block inside a block or function does not hide a variable**: in
`{ float x = 1; { float x = 2; … x … } }` the use means the outer `x`, and only the assignment of 2 goes
to the inner one. -/
theorem C77_hide_violated :
    run hash [] [] St.start [.block, .decl ['x'], .block, .decl ['x'], .use ['x'], .leave, .leave] =
        some [.done, .var (some (.loc 0)), .done, .var (some (.loc 1)), .var (some (.loc 0)), .done,
          .done] ∧
      meansAll [] [] Env.empty
          [.block, .decl ['x'], .block, .decl ['x'], .use ['x'], .leave, .leave] =
        some [.done, .var (some (.loc 0)), .done, .var (some (.loc 1)), .var (some (.loc 1)), .done,
          .done] := by
  decide +kernel

/-- A function with a parameter `x` that it uses in a block. -/
def fn (f : Str) : List Ev := [.func f, .decl ['x'], .block, .use ['x'], .leave, .leave]

/-- C77: **a function uses the variables of another one**: `f1` as scope number 1 and `f` as scope number
11 are both called `f11::`, and `x` in `f` is the parameter of `f1`. -/
theorem C77_scope_violated :
    let blocks : Nat → List Ev := fun n => (List.replicate n [Ev.block, Ev.leave]).flatten
    let es := blocks 1 ++ fn ['f', '1'] ++ blocks 8 ++ fn ['f']
    (run hash [] [] St.start es).map (fun os => os.drop 24) =
        some [.done, .var (some (.loc 1)), .done, .var (some (.loc 0)), .done, .done] ∧
      (meansAll [] [] Env.empty es).map (fun os => os.drop 24) =
        some [.done, .var (some (.loc 1)), .done, .var (some (.loc 1)), .done, .done] := by
  decide +kernel

/-- C77: **a second function of the same name inside of a function is never found**. -/
theorem C77_overload_violated :
    let es : List Ev := [.func ['f'], .func ['g'], .leave, .func ['g'], .leave, .call ['g'], .leave]
    run hash [] [] St.start es =
        some [.done, .done, .done, .done, .done, .funcs [.loc 0], .done] ∧
      meansAll [] [] Env.empty es =
        some [.done, .done, .done, .done, .done, .funcs [.loc 0, .loc 1], .done] := by
  decide +kernel

end Verif.Shader.Scope
