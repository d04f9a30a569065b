import Verif.Util.SearchPath
/-
C25: expanding a search path.  C38: looking for a file.
-/
namespace Verif.Util.SearchPath

/-! ## C25 -/

/-- Spec: what a path text is made of. -/
inductive Item where
  | char (c : Nat)
  | old
  | dflt
  | var (name : Txt)
  deriving DecidableEq, Repr

/-- Spec: plain characters are not special, names have no percent sign. -/
def Item.ok : Item → Prop
  | .char c => c ≠ 38 ∧ c ≠ 64 ∧ c ≠ 37
  | .var n => 37 ∉ n
  | _ => True

/-- Spec: how an item is written. -/
def Item.write : Item → Txt
  | .char c => [c]
  | .old => [38]
  | .dflt => [64]
  | .var n => 37 :: n ++ [37]

/-- Spec: what an item stands for. -/
def Item.value (old dflt : Txt) (env : Txt → Option Txt) : Item → Txt
  | .char c => [c]
  | .old => old
  | .dflt => dflt
  | .var n => (env n).getD []

theorem isSpecial_false {c : Nat} (h : c ≠ 38 ∧ c ≠ 64 ∧ c ≠ 37) : isSpecial c = false := by
  simp [isSpecial, h]

theorem takeWhile_name (n t : Txt) (h : 37 ∉ n) :
    (n ++ 37 :: t).takeWhile (· != 37) = n ∧ (n ++ 37 :: t).dropWhile (· != 37) = 37 :: t := by
  induction n with
  | nil => simp
  | cons a n ih =>
    simp only [List.mem_cons, not_or] at h
    have ha : a ≠ 37 := fun hh => h.1 hh.symm
    simp [ha, ih h.2]

/-- A plain character can be moved from the text to the path. -/
theorem turn_char (old dflt env) (c : Nat) (hc : isSpecial c = false) (rest acc : Txt)
    (fuel : Nat) (out : Txt)
    (h : expandLoop old dflt env fuel rest (acc ++ [c]) = some out) :
    expandLoop old dflt env fuel (c :: rest) acc = some out := by
  cases fuel with
  | zero => simp [expandLoop] at h
  | succ fuel =>
    simp only [expandLoop, turn] at h ⊢
    have e1 : (c :: rest).dropWhile (fun c => !isSpecial c) =
        rest.dropWhile (fun c => !isSpecial c) := by simp [List.dropWhile_cons, hc]
    have e2 : (c :: rest).takeWhile (fun c => !isSpecial c) =
        c :: rest.takeWhile (fun c => !isSpecial c) := by simp [List.takeWhile_cons, hc]
    rw [e1, e2]
    cases hd : rest.dropWhile (fun c => !isSpecial c) with
    | nil => rw [hd] at h; simpa using h
    | cons d tl =>
      rw [hd] at h
      by_cases h1 : d = 38
      · simpa [h1] using h
      · by_cases h2 : d = 64
        · simpa [h1, h2] using h
        · simp only [h1, h2, if_false] at h ⊢
          cases he : tl.dropWhile (· != 37) with
          | nil =>
            exfalso
            rw [he] at h
            simp only at h
            -- the text stays the same for ever
            have never : ∀ n acc, expandLoop old dflt env n rest acc = none := by
              intro n
              induction n with
              | zero => intro acc; rfl
              | succ n ih => intro acc; simp only [expandLoop, turn, hd, h1, h2, if_false, he, ih]
            rw [never] at h
            simp at h
          | cons x tl' => rw [he] at h; simpa using h

/-- **C25.**  A search path built from plain characters, `&`, `@` and
`%name%` expands to the concatenation of the values of these, within as many
turns as it has characters and one. -/
theorem C25_expand (old dflt : Txt) (env : Txt → Option Txt) (items : List Item)
    (hok : ∀ i ∈ items, i.ok) :
    expandSearchPath old dflt env (items.flatMap Item.write |>.length.succ)
      (items.flatMap Item.write) = some (items.flatMap (Item.value old dflt env)) := by
  unfold expandSearchPath
  suffices H : ∀ (fuel : Nat) (acc : Txt), (items.flatMap Item.write).length < fuel →
      expandLoop old dflt env fuel (items.flatMap Item.write) acc =
        some (acc ++ items.flatMap (Item.value old dflt env)) by
    simpa using H _ [] (Nat.lt_succ_self _)
  induction items with
  | nil =>
    intro fuel acc hf
    cases fuel with
    | zero => simp at hf
    | succ fuel => simp [expandLoop, turn]
  | cons i items ih =>
    have ih' := ih (fun j hj => hok j (List.mem_cons_of_mem _ hj))
    have hi := hok i List.mem_cons_self
    intro fuel acc hf
    cases i with
    | char c =>
      simp only [List.flatMap_cons, Item.write, Item.value, List.singleton_append,
        List.length_cons] at hf ⊢
      apply turn_char old dflt env c (isSpecial_false hi) _ _
      rw [ih' fuel _ (by omega)]
      simp
    | old =>
      simp only [List.flatMap_cons, Item.write, Item.value, List.singleton_append,
        List.length_cons] at hf ⊢
      cases fuel with
      | zero => omega
      | succ fuel =>
        simp [expandLoop, turn, isSpecial]
        rw [ih' fuel _ (by omega)]
        simp
    | dflt =>
      simp only [List.flatMap_cons, Item.write, Item.value, List.singleton_append,
        List.length_cons] at hf ⊢
      cases fuel with
      | zero => omega
      | succ fuel =>
        simp [expandLoop, turn, isSpecial]
        rw [ih' fuel _ (by omega)]
        simp
    | var n =>
      have e : ((Item.var n) :: items).flatMap Item.write =
          37 :: (n ++ 37 :: items.flatMap Item.write) := by
        simp [Item.write]
      rw [e] at hf ⊢
      cases fuel with
      | zero => omega
      | succ fuel =>
        have ht := takeWhile_name n (items.flatMap Item.write) hi
        simp [expandLoop, turn, isSpecial, ht.1, ht.2]
        rw [ih' fuel _ (by simp only [List.length_cons, List.length_append] at hf; omega)]
        simp [Item.value]

example : expandSearchPath [1, 2] [3] (fun n => if n = [72] then some [9, 9] else none) 20
    [47, 38, 58, 64, 58, 37, 72, 37, 37, 73, 37, 47] = some [47, 1, 2, 58, 3, 58, 9, 9, 47] := by
  decide

/-- Splitting a text into items, when the percent signs come in pairs. -/
theorem exists_items (n : Nat) : ∀ s : Txt, s.length ≤ n → s.count 37 % 2 = 0 →
    ∃ items : List Item, (∀ i ∈ items, i.ok) ∧ items.flatMap Item.write = s := by
  induction n with
  | zero =>
    intro s hs _
    exact ⟨[], by simp, by cases s <;> simp_all⟩
  | succ n ih =>
    intro s hs hc
    cases s with
    | nil => exact ⟨[], by simp, rfl⟩
    | cons c t =>
      by_cases hp : c = 37
      · subst hp
        have hmem : 37 ∈ t := by
          apply Classical.byContradiction
          intro hn
          simp [List.count_eq_zero_of_not_mem hn] at hc
        obtain ⟨a, b, rfl, hna⟩ : ∃ a b, t = a ++ 37 :: b ∧ 37 ∉ a := by
          clear hs hc ih
          induction t with
          | nil => simp at hmem
          | cons d t ih =>
            by_cases hd : d = 37
            · exact ⟨[], t, by simp [hd], by simp⟩
            · obtain ⟨a, b, rfl, h⟩ := ih (by
                rcases List.mem_cons.mp hmem with h | h
                · exact absurd h.symm hd
                · exact h)
              refine ⟨d :: a, b, by simp, ?_⟩
              simp only [List.mem_cons, not_or]
              exact ⟨fun h => hd h.symm, h⟩
        obtain ⟨items, h1, h2⟩ := ih b (by simp at hs; omega) (by
          simp [List.count_eq_zero_of_not_mem hna] at hc
          omega)
        refine ⟨.var a :: items, ?_, by simp [Item.write, h2]⟩
        intro i hi
        rcases List.mem_cons.mp hi with rfl | hi
        · exact hna
        · exact h1 i hi
      · obtain ⟨items, h1, h2⟩ := ih t (by simpa using hs) (by
          rw [List.count_cons] at hc; simpa [hp] using hc)
        refine ⟨(if c = 38 then .old else if c = 64 then .dflt else .char c) :: items, ?_, ?_⟩
        · intro i hi
          rcases List.mem_cons.mp hi with rfl | hi
          · by_cases e1 : c = 38
            · simp [e1, Item.ok]
            · by_cases e2 : c = 64
              · simp [e2, Item.ok]
              · simp [e1, e2, Item.ok, hp]
          · exact h1 i hi
        · by_cases e1 : c = 38
          · simp [e1, Item.write, h2]
          · by_cases e2 : c = 64
            · simp [e2, Item.write, h2]
            · simp [e1, e2, Item.write, h2]

/-- An odd number of percent signs: the loop never ends. -/
theorem expandLoop_odd (old dflt env) (fuel : Nat) : ∀ (s acc : Txt), s.count 37 % 2 = 1 →
    expandLoop old dflt env fuel s acc = none := by
  induction fuel with
  | zero => intros; rfl
  | succ fuel ih =>
    intro s acc hs
    simp only [expandLoop, turn]
    have hsplit := List.takeWhile_append_dropWhile (p := fun c => !isSpecial c) (l := s)
    have hpre : (s.takeWhile (fun c => !isSpecial c)).count 37 = 0 := by
      apply List.count_eq_zero_of_not_mem
      intro hm
      have := List.all_takeWhile (p := fun c => !isSpecial c) (l := s)
      rw [List.all_eq_true] at this
      exact absurd (this _ hm) (by decide)
    have hcount : (s.dropWhile (fun c => !isSpecial c)).count 37 = s.count 37 := by
      have h := congrArg (List.count 37) hsplit
      rw [List.count_append, hpre] at h
      omega
    cases hd : s.dropWhile (fun c => !isSpecial c) with
    | nil => rw [hd] at hcount; simp at hcount; omega
    | cons d tl =>
      rw [hd] at hcount
      have hsp : isSpecial d = true := by
        have := List.head?_dropWhile_not (fun c => !isSpecial c) s
        rw [hd] at this
        simpa using this
      by_cases h1 : d = 38
      · simp only [h1, if_true]
        apply ih
        rw [h1, List.count_cons] at hcount
        simp at hcount; omega
      · by_cases h2 : d = 64
        · simp only [h2, if_true]
          apply ih
          rw [h2, List.count_cons] at hcount
          simp at hcount; omega
        · have h3 : d = 37 := by simpa [isSpecial, h1, h2] using hsp
          simp only [h1, h2, if_false]
          have hs2 := List.takeWhile_append_dropWhile (p := (· != 37)) (l := tl)
          cases he : tl.dropWhile (· != 37) with
          | nil => exact ih _ _ hs
          | cons x tl' =>
            apply ih
            have hx : x = 37 := by
              have := List.head?_dropWhile_not (· != 37) tl
              rw [he] at this
              simpa using this
            have hn : (tl.takeWhile (· != 37)).count 37 = 0 := by
              apply List.count_eq_zero_of_not_mem
              intro hm
              have := List.all_takeWhile (p := (· != 37)) (l := tl)
              rw [List.all_eq_true] at this
              exact absurd (this _ hm) (by decide)
            have : tl.count 37 = tl'.count 37 + 1 := by
              rw [← hs2, he, List.count_append, hn, hx]; simp
            rw [h3] at hcount
            simp [List.count_cons] at hcount
            omega

/-- **C25.**  The expansion ends exactly when the number of percent signs is
even. -/
theorem C25_terminates_iff (old dflt : Txt) (env : Txt → Option Txt) (s : Txt) :
    (∃ fuel out, expandSearchPath old dflt env fuel s = some out) ↔ s.count 37 % 2 = 0 := by
  constructor
  · rintro ⟨fuel, out, h⟩
    apply Classical.byContradiction
    intro hn
    rw [expandSearchPath, expandLoop_odd old dflt env fuel s [] (by omega)] at h
    simp at h
  · intro h
    obtain ⟨items, h1, rfl⟩ := exists_items s.length s (Nat.le_refl _) h
    exact ⟨_, _, C25_expand old dflt env items h1⟩

/-- **C25 violated.**  "Always terminates" fails: a single `%` (as in
`/100%/maps`) makes the loop run for ever, whatever the paths and the
environment. -/
theorem C25_terminates_violated :
    ¬ ∀ (old dflt : Txt) (env : Txt → Option Txt) (s : Txt),
      ∃ fuel out, expandSearchPath old dflt env fuel s = some out := by
  intro h
  have := (C25_terminates_iff [] [] (fun _ => none) [47, 49, 37, 47]).mp (h _ _ _ _)
  revert this; decide

example : (∃ fuel out, expandSearchPath [] [] (fun _ => none) fuel [37, 65, 37] = some out) :=
  (C25_terminates_iff [] [] (fun _ => none) _).mpr (by decide)

/-! ## C38 -/

/-- Spec: cut a text at every `:` and `;`. -/
def splitAll : Txt → List Txt
  | [] => [[]]
  | c :: t =>
    if c = 58 ∨ c = 59 then [] :: splitAll t
    else match splitAll t with
      | [] => [[c]]
      | w :: ws => (c :: w) :: ws

theorem isDelim_iff (c : Nat) : isDelim c = true ↔ (c = 58 ∨ c = 59) := by simp [isDelim]

theorem splitAll_word (s : Txt) :
    splitAll s = s.takeWhile (fun c => !isDelim c) ::
      (match s.dropWhile (fun c => !isDelim c) with | [] => [] | _ :: t => splitAll t) := by
  induction s with
  | nil => rfl
  | cons c t ih =>
    by_cases hc : c = 58 ∨ c = 59
    · have hd := (isDelim_iff c).mpr hc
      simp [splitAll, hc, List.dropWhile_cons, hd]
    · have hd : isDelim c = false := by
        cases h : isDelim c
        · rfl
        · exact absurd ((isDelim_iff c).mp h) hc
      simp only [splitAll, hc, if_false, List.takeWhile_cons, List.dropWhile_cons, hd]
      rw [ih]
      simp

/-- The search path tokenizer: the non-empty words between the delimiters. -/
theorem C38_paths (s : Txt) : paths s = (splitAll s).filter (fun w => w ≠ []) := by
  induction hn : s.length using Nat.strongRecOn generalizing s with
  | ind n ih =>
    subst hn
    have skip : ∀ s : Txt, (splitAll s).filter (fun w => w ≠ []) =
        (splitAll (s.dropWhile isDelim)).filter (fun w => w ≠ []) := by
      intro s
      induction s with
      | nil => rfl
      | cons c t ih =>
        by_cases hc : c = 58 ∨ c = 59
        · have hd := (isDelim_iff c).mpr hc
          simp only [List.dropWhile_cons, hd, if_true]
          rw [← ih]
          simp [splitAll, hc]
        · have hd : isDelim c = false := by
            cases h : isDelim c
            · rfl
            · exact absurd ((isDelim_iff c).mp h) hc
          simp [List.dropWhile_cons, hd]
    rw [skip, paths]
    have hlen := length_dropWhile_le isDelim s
    have hnp : nextPath s = match s.dropWhile isDelim with
        | [] => none
        | c :: tl => some ((c :: tl).takeWhile (fun c => !isDelim c),
            (c :: tl).dropWhile (fun c => !isDelim c)) := rfl
    split
    · rename_i h
      rw [hnp] at h
      cases hd : s.dropWhile isDelim with
      | nil => rfl
      | cons c tl => rw [hd] at h; simp at h
    · rename_i t r h
      have hlt := nextPath_lt h
      rw [ih r.length hlt r rfl]
      rw [hnp] at h
      cases hd : s.dropWhile isDelim with
      | nil => rw [hd] at h; simp at h
      | cons c tl =>
        rw [hd] at h
        simp only [Option.some.injEq, Prod.mk.injEq] at h
        have hcd : isDelim c = false := by
          have := List.head?_dropWhile_not isDelim s
          rw [hd] at this
          simpa using this
        rw [splitAll_word (c :: tl), h.1, h.2]
        have hne : t ≠ [] := by
          rw [← h.1]; simp [List.takeWhile_cons, hcd]
        rw [List.filter_cons_of_pos (by simpa using hne)]
        congr 1
        cases hr : r with
        | nil => rfl
        | cons x r' =>
          have hx : isDelim x = true := by
            have := List.head?_dropWhile_not (fun c => !isDelim c) (c :: tl)
            rw [h.2, hr] at this
            simpa using this
          simp [splitAll, (isDelim_iff x).mp hx]

example : paths [58, 58, 46, 58, 59, 47, 97, 59] = [[46], [47, 97]] := by
  rw [C38_paths]; decide

/-- Spec: a name that is looked up as it is: absolute, or starting with the
component `.` or `..`. -/
def Direct (name : Txt) : Prop :=
  (∃ t, name = 47 :: t) ∨ name = [46] ∨ name = [46, 46] ∨
    (∃ t, name = 46 :: 47 :: t) ∨ (∃ t, name = 46 :: 46 :: 47 :: t)

theorem direct_iff (name : Txt) : direct name = true ↔ Direct name := by
  unfold direct Direct
  simp only [Bool.or_eq_true, beq_iff_eq]
  rcases name with _ | ⟨a, _ | ⟨b, _ | ⟨c, t⟩⟩⟩
  · simp
  · by_cases ha : a = 47 <;> simp [List.takeWhile_cons, ha]
  · by_cases ha : a = 47
    · simp [ha]
    · by_cases hb : b = 47 <;> simp [List.takeWhile_cons, ha, hb]
  · by_cases ha : a = 47
    · simp [ha]
    · by_cases hb : b = 47
      · simp [List.takeWhile_cons, ha, hb]
      · by_cases hc : c = 47 <;> simp [List.takeWhile_cons, ha, hb, hc]

/-- Spec: the names to try, in order. -/
inductive Candidates (name sp : Txt) : List Txt → Prop
  | empty : name = [] → Candidates name sp []
  | direct : Direct name → Candidates name sp [name]
  | dirs : name ≠ [] → ¬ Direct name →
      Candidates name sp (((splitAll sp).filter (fun w => w ≠ [])).map
        (fun d => if d.getLast? = some 47 then d ++ name else d ++ 47 :: name))

theorem searchDirs_eq (fs : Txt → Stat) (name : Txt) (ds : List Txt)
    (hfs : ∀ d ∈ ds, fs (joinPath d name) ≠ .error) :
    searchDirs fs name ds =
      .path (((ds.map (fun d => joinPath d name)).find? (fun p => fs p = .regular)).getD []) := by
  induction ds with
  | nil => rfl
  | cons d ds ih =>
    have ih' := ih (fun e he => hfs e (List.mem_cons_of_mem _ he))
    have hd := hfs d List.mem_cons_self
    simp only [searchDirs, isRegularFile, List.map_cons, List.find?_cons]
    cases h : fs (joinPath d name) with
    | regular => simp
    | other => simpa using ih'
    | error => exact absurd h hd

/-- **C38, partial.**  When every candidate can be examined, the search returns
the first candidate that is a regular file, and the empty path exactly when
there is none.  Missing: a candidate that cannot be examined, see
`C38_error_violated`. -/
theorem C38_find_partial (fs : Txt → Stat) (name sp : Txt) (cs : List Txt)
    (hc : Candidates name sp cs) (hfs : ∀ c ∈ cs, fs c ≠ .error) :
    findFileNothrow fs name sp = .path ((cs.find? (fun p => fs p = .regular)).getD []) := by
  unfold findFileNothrow
  cases hc with
  | empty h => simp [h]
  | direct h =>
    have hn : name ≠ [] := by rintro rfl; simp [Direct] at h
    rw [if_neg hn, if_pos ((direct_iff name).mpr h)]
    have := hfs name (by simp)
    cases hs : fs name <;> simp_all [isRegularFile]
  | dirs hn hd =>
    rw [if_neg hn, if_neg (by rw [direct_iff]; exact hd), C38_paths]
    exact searchDirs_eq fs name _ (fun d hd' => hfs _ (List.mem_map_of_mem hd'))

/-- Every name has its list of candidates, and only one. -/
theorem C38_candidates (name sp : Txt) : ∃ cs, Candidates name sp cs ∧
    ∀ cs', Candidates name sp cs' → cs' = cs := by
  by_cases hn : name = []
  · refine ⟨[], .empty hn, fun cs' h => ?_⟩
    cases h with
    | empty => rfl
    | direct h => subst hn; simp [Direct] at h
    | dirs h => exact absurd hn h
  · by_cases hd : Direct name
    · refine ⟨_, .direct hd, fun cs' h => ?_⟩
      cases h with
      | empty h => exact absurd h hn
      | direct => rfl
      | dirs _ h => exact absurd hd h
    · refine ⟨_, .dirs hn hd, fun cs' h => ?_⟩
      cases h with
      | empty h => exact absurd h hn
      | direct h => exact absurd h hd
      | dirs => rfl

/-- A candidate found is never the empty path, so the empty path means that
none exists. -/
theorem C38_not_found_partial (fs : Txt → Stat) (name sp : Txt) (cs : List Txt)
    (hc : Candidates name sp cs) (hfs : ∀ c ∈ cs, fs c ≠ .error) :
    findFileNothrow fs name sp = .path [] ↔ ∀ c ∈ cs, fs c ≠ .regular := by
  rw [C38_find_partial fs name sp cs hc hfs]
  have hne : ∀ c ∈ cs, c ≠ [] := by
    cases hc with
    | empty => simp
    | direct h =>
      intro c hc'
      rw [List.mem_singleton.mp hc']
      rintro rfl; simp [Direct] at h
    | dirs hn hd =>
      intro c hc'
      obtain ⟨d, _, rfl⟩ := List.mem_map.mp hc'
      split <;> simp [hn]
  cases hf : cs.find? (fun p => fs p = .regular) with
  | none =>
    rw [List.find?_eq_none] at hf
    simpa using hf
  | some c =>
    have hm := List.mem_of_find?_eq_some hf
    have hr := List.find?_some hf
    constructor
    · intro h
      simp at h
      exact absurd h (hne c hm)
    · intro h
      exact absurd (by simpa using hr) (h c hm)

/-- The file system of the example: `a/f` cannot be examined, `b/f` is a
regular file. -/
def lockedFs (p : Txt) : Stat :=
  if p = [97, 47, 102] then .error else if p = [98, 47, 102] then .regular else .other

/-- **C38 violated.**  A directory that cannot be read hides the directories
after it: looking for `f` in `a:b` raises an exception although `b/f` exists,
in spite of the comment at file.cpp:66-82. -/
theorem C38_error_violated :
    lockedFs [98, 47, 102] = .regular ∧ Candidates [102] [97, 58, 98] [[97, 47, 102], [98, 47, 102]] ∧
    findFileNothrow lockedFs [102] [97, 58, 98] = .raised := by
  have h : paths [97, 58, 98] = [[97], [98]] := by rw [C38_paths]; decide
  refine ⟨by decide, ?_, ?_⟩
  · have := Candidates.dirs (name := [102]) (sp := [97, 58, 98]) (by decide) (by simp [Direct])
    rw [← C38_paths, h] at this
    exact this
  unfold findFileNothrow
  rw [h]
  decide

example : findFileNothrow lockedFs [102] [98, 58, 97] = .path [98, 47, 102] := by
  unfold findFileNothrow
  rw [show paths [98, 58, 97] = [[98], [97]] by rw [C38_paths]; decide]
  decide

end Verif.Util.SearchPath
