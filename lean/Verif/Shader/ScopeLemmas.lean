import Verif.Shader.ScopeSpec
import Mathlib.Tactic.Common
import Mathlib.Tactic.Push
/-!
# Scopes: names of scopes, lists of variables and functions
-/

namespace Verif.Shader.Scope

/-! ## Names -/

/-- Names up to the last colon. -/
theorem append_colon {a b x y : Str} (ha : a = [] ∨ a.getLast? = some ':')
    (hb : b = [] ∨ b.getLast? = some ':') (hx : ':' ∉ x) (hy : ':' ∉ y) (h : a ++ x = b ++ y) :
    a = b ∧ x = y := by
  rcases List.append_eq_append_iff.1 h with ⟨t, h1, h2⟩ | ⟨t, h1, h2⟩
  · rcases List.eq_nil_or_concat t with rfl | ⟨l, c, rfl⟩
    · simp at h1 h2; exact ⟨h1.symm, h2⟩
    · rcases hb with e | e
      · subst e; simp at h1
      · rw [h1] at e
        simp at e
        subst e
        exact absurd (by rw [h2]; simp) hx
  · rcases List.eq_nil_or_concat t with rfl | ⟨l, c, rfl⟩
    · simp at h1 h2; exact ⟨h1, h2.symm⟩
    · rcases ha with e | e
      · subst e; simp at h1
      · rw [h1] at e
        simp at e
        subst e
        exact absurd (by rw [h2]; simp) hy

/-- Names up to the number. -/
theorem append_digits {a b x y : Str} (ha : ∀ c, a.getLast? = some c → c.isDigit = false)
    (hb : ∀ c, b.getLast? = some c → c.isDigit = false)
    (hx : ∀ c ∈ x, c.isDigit = true) (hy : ∀ c ∈ y, c.isDigit = true) (h : a ++ x = b ++ y) :
    a = b ∧ x = y := by
  rcases List.append_eq_append_iff.1 h with ⟨t, h1, h2⟩ | ⟨t, h1, h2⟩
  · rcases List.eq_nil_or_concat t with rfl | ⟨l, c, rfl⟩
    · simp at h1 h2; exact ⟨h1.symm, h2⟩
    · have h3 := hb c (by rw [h1]; simp)
      have h4 := hx c (by rw [h2]; simp)
      rw [h3] at h4; cases h4
  · rcases List.eq_nil_or_concat t with rfl | ⟨l, c, rfl⟩
    · simp at h1 h2; exact ⟨h1, h2.symm⟩
    · have h3 := ha c (by rw [h1]; simp)
      have h4 := hy c (by rw [h2]; simp)
      rw [h3] at h4; cases h4

theorem digits_inj {j k : Nat} (h : Nat.toDigits 10 j = Nat.toDigits 10 k) : j = k := by
  have h1 := Nat.ofDigitChars_ten_toDigits (n := j)
  rw [h, Nat.ofDigitChars_ten_toDigits] at h1
  exact h1.symm

theorem digits_digit {k : Nat} {c : Char} (h : c ∈ Nat.toDigits 10 k) : c.isDigit = true :=
  Nat.isDigit_of_mem_toDigits (by decide) (by decide) h

theorem digits_no_colon (k : Nat) : ':' ∉ Nat.toDigits 10 k := by
  intro h
  have h1 := digits_digit h
  revert h1
  decide

/-- Paths of scopes whose names can be told from their numbers. -/
def Good : Path → Nat → Prop
  | [], _ => True
  | c :: p, k => ScopeName c.1 ∧ c.2 < k ∧ Good p c.2

theorem Good.mono {p : Path} {k m : Nat} (h : Good p k) (hk : k ≤ m) : Good p m := by
  cases p with
  | nil => trivial
  | cons c p => exact ⟨h.1, Nat.lt_of_lt_of_le h.2.1 hk, h.2.2⟩

theorem Good.lt {p : Path} {k : Nat} (h : Good p k) : ∀ c ∈ p, c.2 < k := by
  induction p generalizing k with
  | nil => simp
  | cons d p ih =>
    intro c hc
    rcases List.mem_cons.1 hc with rfl | hc
    · exact h.2.1
    · exact Nat.lt_trans (ih h.2.2 c hc) h.2.1

theorem Good.name {p : Path} {k : Nat} (h : Good p k) : ∀ c ∈ p, ScopeName c.1 := by
  induction p generalizing k with
  | nil => simp
  | cons d p ih =>
    intro c hc
    rcases List.mem_cons.1 hc with rfl | hc
    · exact h.1
    · exact ih h.2.2 c hc

theorem Good.not_twice {p : Path} {k : Nat} (hp : p ≠ []) : ¬ Good (p ++ p) k := by
  cases p with
  | nil => exact absurd rfl hp
  | cons c p =>
    intro h
    have := Good.lt h.2.2 c (by simp)
    omega

theorem full_end (p : Path) : full p = [] ∨ (full p).getLast? = some ':' := by
  cases p with
  | nil => left; rfl
  | cons c p => right; simp [full]

theorem full_append (p q : Path) : full (p ++ q) = full q ++ full p := by
  induction p with
  | nil => simp [full]
  | cons c p ih => simp [full, ih]

theorem full_inj {p q : Path} (hp : ∀ c ∈ p, ScopeName c.1) (hq : ∀ c ∈ q, ScopeName c.1)
    (h : full p = full q) : p = q := by
  induction p generalizing q with
  | nil =>
    cases q with
    | nil => rfl
    | cons d q => simp [full] at h
  | cons c p ih =>
    cases q with
    | nil => simp [full] at h
    | cons d q =>
      have h1 : full p ++ (c.1 ++ Nat.toDigits 10 c.2) = full q ++ (d.1 ++ Nat.toDigits 10 d.2) := by
        have := List.append_cancel_right h
        simpa using this
      have hc := hp c (by simp)
      have hd := hq d (by simp)
      obtain ⟨h2, h3⟩ := append_colon (full_end p) (full_end q)
        (by simp [hc.1, digits_no_colon]) (by simp [hd.1, digits_no_colon]) h1
      obtain ⟨h4, h5⟩ := append_digits hc.2 hd.2 (fun _ h => digits_digit h)
        (fun _ h => digits_digit h) h3
      have h6 := ih (fun e he => hp e (by simp [he])) (fun e he => hq e (by simp [he])) h2
      have h7 : c = d := Prod.ext h4 (digits_inj h5)
      rw [h6, h7]

/-- Names of variables of different scopes are different. -/
theorem name_inj {p q : Path} {x y : Str} (hp : ∀ c ∈ p, ScopeName c.1)
    (hq : ∀ c ∈ q, ScopeName c.1) (hx : Ident x) (hy : Ident y)
    (h : full p ++ x = full q ++ y) : p = q ∧ x = y := by
  obtain ⟨h1, h2⟩ := append_colon (full_end p) (full_end q) hx hy h
  exact ⟨full_inj hp hq h1, h2⟩

/-! ## Lists -/

theorem findIdx_congr {α β : Type} {f : α → Bool} {g : β → Bool} {m : α → β} (l : List α)
    (h : ∀ a ∈ l, g (m a) = f a) : (l.map m).findIdx? g = l.findIdx? f := by
  induction l with
  | nil => rfl
  | cons a l ih =>
    rw [List.map_cons, List.findIdx?_cons, List.findIdx?_cons, h a (by simp),
      ih (fun b hb => h b (by simp [hb]))]

theorem findIdx_none {α : Type} {f : α → Bool} (l : List α) (h : ∀ a ∈ l, f a = false) :
    l.findIdx? f = none := by
  rw [List.findIdx?_eq_none_iff]
  exact h

/-- The variables of a file with the paths of their scopes. -/
abbrev Vars := List (Path × Str × Option Ref)

def conc (vs : Vars) : List VarDef := vs.map (fun v => ⟨full v.1 ++ v.2.1, v.2.2⟩)

/-- The first variable of a scope with a name. -/
def first (vs : Vars) (u : Path) (x : Str) : Option Nat :=
  vs.findIdx? (fun v => decide (v.1 = u ∧ v.2.1 = x))

theorem first_append (vs : Vars) (v : Path × Str × Option Ref) (u : Path) (x : Str) :
    first (vs ++ [v]) u x =
      (first vs u x).or (if v.1 = u ∧ v.2.1 = x then some vs.length else none) := by
  unfold first
  rw [List.findIdx?_append]
  by_cases h : v.1 = u ∧ v.2.1 = x
  · simp [h]
  · rw [if_neg h]
    simp [List.findIdx?_cons, h]

theorem first_some {vs : Vars} {u : Path} {x : Str} {k : Nat} (h : first vs u x = some k) :
    ∃ e, vs[k]? = some (u, x, e) := by
  unfold first at h
  rw [List.findIdx?_eq_some_iff_getElem] at h
  obtain ⟨hk, h1, -⟩ := h
  have h2 := of_decide_eq_true h1
  refine ⟨vs[k].2.2, ?_⟩
  rw [List.getElem?_eq_getElem hk]
  congr 1
  exact Prod.ext h2.1 (Prod.ext h2.2 rfl)

/-- What the search by hash finds, when hashes of the names are different. -/
theorem findVar_full {h : Str → Nat} {W : Str → Prop}
    (inj : ∀ a b, W a → W b → h a = h b → a = b) {std : List Str}
    (hstd : ∀ n ∈ std, W n ∧ Ident n) {vs : Vars}
    (hvs : ∀ v ∈ vs, (∀ c ∈ v.1, ScopeName c.1) ∧ Ident v.2.1 ∧ W (full v.1 ++ v.2.1))
    {u : Path} {x : Str} (hu : ∀ c ∈ u, ScopeName c.1) (hx : Ident x) (hW : W (full u ++ x)) :
    findVar h std (conc vs) (full u ++ x) =
      ((first vs u x).map Ref.loc).or
        (if u = [] then (std.findIdx? (· == x)).map .std else none) := by
  have h1 : (conc vs).findIdx? (fun v => h v.name == h (full u ++ x)) = first vs u x := by
    unfold conc first
    apply findIdx_congr
    intro v hv
    obtain ⟨h2, h3, h4⟩ := hvs v hv
    by_cases e : v.1 = u ∧ v.2.1 = x
    · simp [e.1, e.2]
    · have : h (full v.1 ++ v.2.1) ≠ h (full u ++ x) := by
        intro he
        exact e (name_inj h2 hu h3 hx (inj _ _ h4 hW he))
      simp [e, this]
  have h2 : findStd h std (full u ++ x) =
      (if u = [] then (std.findIdx? (· == x)).map .std else none) := by
    unfold findStd
    split
    · rename_i e
      subst e
      have := findIdx_congr (m := id) (f := fun n => n == x)
        (g := fun m => h m == h (full [] ++ x)) std (by
          intro n hn
          by_cases e : n = x
          · simp [e, full]
          · have : h n ≠ h x := fun he => e (inj _ _ (hstd n hn).1 (by simpa [full] using hW) he)
            simp [e, full, this])
      rw [List.map_id] at this
      rw [this]
    · rename_i e
      rw [findIdx_none]
      · rfl
      · intro n hn
        have : h n ≠ h (full u ++ x) := by
          intro he
          have h3 := inj _ _ (hstd n hn).1 hW he
          have h4 : full [] ++ n = full u ++ x := by simpa [full] using h3
          exact e (name_inj (by simp) hu (hstd n hn).2 hx h4).1.symm
        simp [this]
  unfold findVar
  rw [h1]
  cases first vs u x with
  | none => simpa using h2
  | some k => simp

/-! ## Following `extern` -/

/-- `extern` leads to earlier variables. -/
def Back (vars : List VarDef) : Prop :=
  ∀ (k : Nat) (n : Str) (j : Nat), vars[k]? = some ⟨n, some (.loc j)⟩ → j < k

theorem target_std (vars : List VarDef) (f i : Nat) : target vars f (.std i) = .std i := by
  cases f <;> rfl

theorem target_congr {vars vars' : List VarDef} (hb : Back vars) (k : Nat) :
    ∀ (f f' : Nat), (∀ i ≤ k, vars'[i]? = vars[i]?) → k < f → k < f' →
      target vars f (.loc k) = target vars' f' (.loc k) := by
  induction k using Nat.strongRecOn with
  | _ k ih =>
    intro f f' h hf hf'
    obtain ⟨f, rfl⟩ : ∃ g, f = g + 1 := ⟨f - 1, by omega⟩
    obtain ⟨f', rfl⟩ : ∃ g, f' = g + 1 := ⟨f' - 1, by omega⟩
    show (match vars[k]? with
      | some ⟨_, some r⟩ => target vars f r
      | _ => .loc k) = (match vars'[k]? with
      | some ⟨_, some r⟩ => target vars' f' r
      | _ => .loc k)
    rw [h k (Nat.le_refl k)]
    rcases hv : vars[k]? with _ | ⟨n, _ | r⟩
    · rfl
    · rfl
    · cases r with
      | std i => simp [target_std]
      | loc j =>
        have hj := hb k n j hv
        exact ih j hj f f' (fun i hi => h i (by omega)) (by omega) (by omega)

/-- The variable that a variable of the file stands for. -/
def tgt (vs : Vars) (k : Nat) : Ref := target (conc vs) (vs.length + 1) (.loc k)

theorem conc_length (vs : Vars) : (conc vs).length = vs.length := by simp [conc]

theorem conc_append (vs : Vars) (v : Path × Str × Option Ref) :
    conc (vs ++ [v]) = conc vs ++ [⟨full v.1 ++ v.2.1, v.2.2⟩] := by simp [conc]

theorem tgt_append {vs : Vars} (hb : Back (conc vs)) (v : Path × Str × Option Ref) {k : Nat}
    (hk : k < vs.length) : tgt (vs ++ [v]) k = tgt vs k := by
  unfold tgt
  symm
  apply target_congr hb
  · intro i hi
    rw [conc_append, List.getElem?_append_left (by rw [conc_length]; omega)]
  · omega
  · simp; omega

theorem first_lt {vs : Vars} {u : Path} {x : Str} {k : Nat} (h : first vs u x = some k) :
    k < vs.length := by
  obtain ⟨e, he⟩ := first_some h
  exact (List.getElem?_eq_some_iff.1 he).1

theorem first_map_append {vs : Vars} (hb : Back (conc vs)) (v : Path × Str × Option Ref)
    (u : Path) (x : Str) : (first vs u x).map (tgt (vs ++ [v])) = (first vs u x).map (tgt vs) := by
  cases h : first vs u x with
  | none => rfl
  | some k => simp [tgt_append hb v (first_lt h)]

theorem tgt_last {vs : Vars} (hb : Back (conc vs)) (p : Path) (x : Str) (e : Option Ref)
    (he : ∀ j, e = some (.loc j) → j < vs.length) :
    tgt (vs ++ [(p, x, e)]) vs.length =
      match e with
      | none => .loc vs.length
      | some r => target (conc vs) (vs.length + 1) r := by
  unfold tgt
  show (match (conc (vs ++ [(p, x, e)]))[vs.length]? with
      | some ⟨_, some r⟩ => target _ _ r
      | _ => Ref.loc vs.length) = _
  have h1 : (conc (vs ++ [(p, x, e)]))[vs.length]? = some ⟨full p ++ x, e⟩ := by
    rw [conc_append, List.getElem?_append_right (by rw [conc_length]; exact Nat.le_refl _)]
    simp [conc_length]
  rw [h1]
  cases e with
  | none => rfl
  | some r =>
    cases r with
    | std i => simp [target_std]
    | loc j =>
      have hj := he j rfl
      symm
      apply target_congr hb
      · intro i hi
        rw [conc_append, List.getElem?_append_left (by rw [conc_length]; omega)]
      · omega
      · simp; omega

/-! ## Functions -/

theorem indices_mem {n : Str} : ∀ (l : List Str) (k i : Nat), i ∈ indices n k l →
    ∃ j, i = k + j ∧ l[j]? = some n
  | [], k, i, h => by simp [indices] at h
  | m :: r, k, i, h => by
    unfold indices at h
    split at h
    · rename_i e
      rcases List.mem_cons.1 h with rfl | h
      · exact ⟨0, rfl, by simp [e]⟩
      · obtain ⟨j, h1, h2⟩ := indices_mem r (k + 1) i h
        exact ⟨j + 1, by omega, by simpa using h2⟩
    · obtain ⟨j, h1, h2⟩ := indices_mem r (k + 1) i h
      exact ⟨j + 1, by omega, by simpa using h2⟩

theorem indices_append {n : Str} (a b : List Str) (k : Nat) :
    indices n k (a ++ b) = indices n k a ++ indices n (k + a.length) b := by
  induction a generalizing k with
  | nil => simp [indices]
  | cons m a ih =>
    have e : k + (m :: a).length = k + 1 + a.length := by simp; omega
    rw [e]
    by_cases h : m = n
    · simp [indices, h, ih]
    · simp [indices, h, ih]

theorem indices_nil {n : Str} (l : List Str) (k : Nat) (h : ∀ m ∈ l, m ≠ n) :
    indices n k l = [] := by
  induction l generalizing k with
  | nil => rfl
  | cons m l ih =>
    unfold indices
    rw [if_neg (h m (by simp))]
    exact ih (k + 1) (fun a ha => h a (by simp [ha]))

/-- The functions of a scope with a name. -/
def idxs (fs : List (Path × Str)) (u : Path) (x : Str) : Nat → List Nat :=
  fun k => match fs with
  | [] => []
  | f :: r => if f.1 = u ∧ f.2 = x then k :: idxs r u x (k + 1) else idxs r u x (k + 1)

def concF (fs : List (Path × Str)) : List Str := fs.map (fun f => full f.1 ++ f.2)

theorem idxs_append (a b : List (Path × Str)) (u : Path) (x : Str) (k : Nat) :
    idxs (a ++ b) u x k = idxs a u x k ++ idxs b u x (k + a.length) := by
  induction a generalizing k with
  | nil => simp [idxs]
  | cons m a ih =>
    have e : k + (m :: a).length = k + 1 + a.length := by simp; omega
    rw [e]
    by_cases h : m.1 = u ∧ m.2 = x
    · simp [idxs, h, ih]
    · simp [idxs, h, ih]

theorem idxs_nil (l : List (Path × Str)) (u : Path) (x : Str) (k : Nat)
    (h : ∀ f ∈ l, ¬ (f.1 = u ∧ f.2 = x)) : idxs l u x k = [] := by
  induction l generalizing k with
  | nil => rfl
  | cons m l ih =>
    unfold idxs
    rw [if_neg (h m (by simp))]
    exact ih (k + 1) (fun a ha => h a (by simp [ha]))

theorem indices_conc {fs : List (Path × Str)}
    (hfs : ∀ f ∈ fs, (∀ c ∈ f.1, ScopeName c.1) ∧ Ident f.2) {u : Path} {x : Str}
    (hu : ∀ c ∈ u, ScopeName c.1) (hx : Ident x) (k : Nat) :
    indices (full u ++ x) k (concF fs) = idxs fs u x k := by
  induction fs generalizing k with
  | nil => rfl
  | cons f fs ih =>
    have ih := ih (fun g hg => hfs g (by simp [hg])) (k + 1)
    obtain ⟨h1, h2⟩ := hfs f (by simp)
    unfold concF at ih ⊢
    rw [List.map_cons]
    unfold indices idxs
    by_cases e : f.1 = u ∧ f.2 = x
    · rw [if_pos (by rw [e.1, e.2]), if_pos e, ih]
    · rw [if_neg (fun he => e (name_inj h1 hu h2 hx he)), if_neg e, ih]

theorem findFuncs_full {stdF : List Str} (hstd : ∀ n ∈ stdF, Ident n) {fs : List (Path × Str)}
    (hfs : ∀ f ∈ fs, (∀ c ∈ f.1, ScopeName c.1) ∧ Ident f.2) {u : Path} {x : Str}
    (hu : ∀ c ∈ u, ScopeName c.1) (hx : Ident x) :
    findFuncs stdF (concF fs) (full u ++ x) =
      (if u = [] then (indices x 0 stdF).map .std else []) ++ (idxs fs u x 0).map .loc := by
  unfold findFuncs
  rw [indices_conc hfs hu hx]
  congr 1
  split
  · rename_i e
    subst e
    simp [full]
  · rename_i e
    rw [indices_nil]
    · rfl
    · intro m hm he
      have h4 : full [] ++ m = full u ++ x := by simpa [full] using he
      exact e (name_inj (by simp) hu (hstd m hm) hx h4).1.symm

theorem findFuncs_name {stdF : List Str} {s : St} {n : Str} {r : Ref}
    (h : r ∈ findFuncs stdF s.funcs n) : funcName stdF s r = n := by
  unfold findFuncs at h
  rcases List.mem_append.1 h with h | h
  · obtain ⟨i, hi, rfl⟩ := List.mem_map.1 h
    obtain ⟨j, h1, h2⟩ := indices_mem _ _ _ hi
    have : i = j := by omega
    subst this
    simp [funcName, List.getD, h2]
  · obtain ⟨i, hi, rfl⟩ := List.mem_map.1 h
    obtain ⟨j, h1, h2⟩ := indices_mem _ _ _ hi
    have : i = j := by omega
    subst this
    simp [funcName, List.getD, h2]

theorem funcLoop_find (stdF funcs : List Str) (x : Str) : ∀ (f : Nat) (n : Str),
    ∃ m, funcLoop stdF funcs x f n = findFuncs stdF funcs m
  | 0, n => ⟨x, rfl⟩
  | f + 1, n => by
    unfold funcLoop
    split
    · rename_i r rs h
      exact ⟨n ++ x, h.symm⟩
    · split
      · exact funcLoop_find stdF funcs x f (up n)
      · exact ⟨x, rfl⟩

theorem rfind_none {b : Str} (h : ':' ∉ b) : rfind b = none := by
  induction b with
  | nil => rfl
  | cons c b ih =>
    unfold rfind
    rw [ih (fun hh => h (by simp [hh]))]
    simp only
    rw [if_neg]
    rintro ⟨rfl, -⟩
    exact h (by simp)

theorem rfind_colon {b : Str} (h : ':' ∉ b) (a : Str) :
    rfind (a ++ ':' :: ':' :: b) = some a.length := by
  induction a with
  | nil =>
    have h1 : rfind (':' :: b) = none := by
      unfold rfind
      rw [rfind_none h]
      simp only
      rw [if_neg]
      rintro ⟨-, e⟩
      cases b with
      | nil => cases e
      | cons c b =>
        simp at e
        exact h (by simp [e])
    show rfind (':' :: ':' :: b) = some 0
    unfold rfind
    rw [h1]
    simp
  | cons c a ih =>
    show rfind (c :: (a ++ ':' :: ':' :: b)) = _
    unfold rfind
    rw [ih]
    simp

theorem up_nil : up [] = [] := rfl

theorem up_full {c : Str × Nat} {p : Path} (hc : ScopeName c.1) :
    up (full (c :: p)) = if p = [] then (c.1 ++ Nat.toDigits 10 c.2).take 1 else full p := by
  have hb : ':' ∉ c.1 ++ Nat.toDigits 10 c.2 := by simp [hc.1, digits_no_colon]
  have hl : 0 < (Nat.toDigits 10 c.2).length := Nat.length_toDigits_pos
  obtain ⟨b, hbe⟩ : ∃ b, b = c.1 ++ Nat.toDigits 10 c.2 := ⟨_, rfl⟩
  have hbl : 0 < b.length := by rw [hbe]; simp; omega
  have h0 : full (c :: p) = (full p ++ b) ++ [':', ':'] := by rw [hbe]; simp [full]
  rw [← hbe] at hb ⊢
  rw [h0]
  unfold up
  have h1 : ((full p ++ b) ++ [':', ':']).length - 2 = (full p ++ b).length := by simp; omega
  rw [h1, List.drop_left, List.take_left, if_pos ⟨by simp; omega, rfl⟩]
  cases p with
  | nil => simp [full, rfind_none hb]
  | cons d p =>
    have h2 : full (d :: p) ++ b = (full p ++ d.1 ++ Nat.toDigits 10 d.2) ++ ':' :: ':' :: b := by
      simp [full]
    rw [h2, rfind_colon hb]
    simp only
    have h3 : (full p ++ d.1 ++ Nat.toDigits 10 d.2) ++ ':' :: ':' :: b = full (d :: p) ++ b := by
      simp [full]
    have h4 : (full p ++ d.1 ++ Nat.toDigits 10 d.2).length + 2 = (full (d :: p)).length := by
      simp [full]; omega
    rw [h3, h4, List.take_left]
    simp

theorem colon_full {d : Str × Nat} {p : Path} : ':' ∈ full (d :: p) := by simp [full]

end Verif.Shader.Scope
