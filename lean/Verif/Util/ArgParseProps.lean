import Verif.Util.ArgParseBack

/-
C85: the command line parser of the tools.
-/
namespace Verif.Util.Args
open Spec

/-! ### Integers -/

/-- C85: the texts taken for integers are those C takes for integers, with blanks
and a sign in front, and `asInt` says for which. -/
theorem C85_integers (a : Txt) (v : ℤ) : parseInt a = some v ↔ ∃ z, Denotes a z ∧ v = asInt z :=
  parseInt_asInt a v

/-- C85: an integer that fits in an `int` is read as itself.  Missing: the others,
see `C85_int_violated`. -/
theorem C85_int_partial (a : Txt) (z : ℤ) (h : Denotes a z) (h1 : -2 ^ 31 ≤ z) (h2 : z < 2 ^ 31) :
    parseInt a = some z := by
  refine (parseInt_asInt a z).mpr ⟨z, h, ?_⟩
  unfold asInt
  rw [if_pos ⟨h1, h2⟩]

example : Denotes " -12".toList (-12) := by
  have h1 : Digit '1' 1 := Digit.dec 1 (by omega)
  have h2 : Digit '2' 2 := Digit.dec 2 (by omega)
  exact Denotes.minus [' '] ['1', '2'] 12 (by simp)
    (.dec _ _ (.snoc ['1'] 1 '2' 2 (.one '1' 1 h1 (by omega)) h2 (by omega)) (by simp))

example : parseInt "0x1F".toList = some 31 := by decide +kernel
example : parseInt "017".toList = some 15 := by decide +kernel
example : parseInt "+7".toList = some 7 := by decide +kernel
example : parseInt "08".toList = none := by decide +kernel
example : parseInt "0x".toList = none := by decide +kernel
example : parseInt "7 ".toList = none := by decide +kernel
example : parseInt "".toList = none := by decide +kernel

/-- C85: integers that do not fit in an `int` are taken too, for others: 4294967298
for 2 and 99999999999999999999 for -1. -/
theorem C85_int_violated :
    parseInt "4294967298".toList = some 2 ∧ parseInt "99999999999999999999".toList = some (-1) := by
  decide +kernel

/-! ### Names -/

/-- C85: a name leads to the option of that name, or the one it is an alias of, or
the flag that remains when `no` is dropped. -/
theorem C85_names (t : Table) (ht : Good t) (name n : Txt) (o : Opt) (no : Bool) :
    t.findOption name = some (n, o, no) ↔ Means t name n o no := find_iff t ht name n o no

/-- C85: an option or an alias that is registered is found under its name from then
on, one that was there before remains, and no name appears twice. -/
theorem C85_register (t : Table) (n : Txt) (o : Opt) (a r : Txt) (h1 : (t.options.map Prod.fst).Nodup)
    (h2 : (t.aliases.map Prod.fst).Nodup) :
    ((t.addOption n o).options.map Prod.fst).Nodup ∧ ((t.alias r a).aliases.map Prod.fst).Nodup ∧
    ((∀ p, (n, p) ∉ t.options) → (n, o) ∈ (t.addOption n o).options) ∧
    ((∀ p, (a, p) ∉ t.aliases) → (a, r) ∈ (t.alias r a).aliases) ∧
    (∀ m p, (m, p) ∈ t.options → (m, p) ∈ (t.addOption n o).options) ∧
    (∀ m p, (m, p) ∈ t.aliases → (m, p) ∈ (t.alias r a).aliases) ∧
    (∀ m p, (m, p) ∈ (t.addOption n o).options → (m, p) ∈ t.options ∨ (m, p) = (n, o)) ∧
    (∀ m p, (m, p) ∈ (t.alias r a).aliases → (m, p) ∈ t.aliases ∨ (m, p) = (a, r)) ∧
    (t.addOption n o).aliases = t.aliases ∧ (t.alias r a).options = t.options := by
  have ho : (t.addOption n o).options =
      if (t.options.lookup n).isSome then t.options else t.options ++ [(n, o)] := by
    unfold Table.addOption; split_ifs <;> rfl
  have ha : (t.alias r a).aliases =
      if (t.aliases.lookup a).isSome then t.aliases else t.aliases ++ [(a, r)] := by
    unfold Table.alias; split_ifs <;> rfl
  have hoa : (t.addOption n o).aliases = t.aliases := by
    unfold Table.addOption; split_ifs <;> rfl
  have hao : (t.alias r a).options = t.options := by
    unfold Table.alias; split_ifs <;> rfl
  have nd : ∀ {β : Type} (l : List (Txt × β)) (k : Txt) (b : β), (l.map Prod.fst).Nodup →
      ¬ (l.lookup k).isSome → ((l ++ [(k, b)]).map Prod.fst).Nodup := by
    intro β l k b hl hk
    have hk' : l.lookup k = none := by
      cases h : l.lookup k with
      | none => rfl
      | some _ => rw [h] at hk; simp at hk
    rw [List.map_append, List.nodup_append]
    refine ⟨hl, by simp, ?_⟩
    intro x hx y hy hxy
    simp only [List.map_cons, List.map_nil, List.mem_singleton] at hy
    obtain ⟨⟨k', b'⟩, hm, rfl⟩ := List.mem_map.mp hx
    simp only at hxy
    rw [hxy, hy] at hm
    exact (lookup_none l hl k).mp hk' b' hm
  refine ⟨?_, ?_, ?_, ?_, ?_, ?_, ?_, ?_, hoa, hao⟩
  · rw [ho]
    split_ifs with h
    · exact h1
    · exact nd _ _ _ h1 h
  · rw [ha]
    split_ifs with h
    · exact h2
    · exact nd _ _ _ h2 h
  · intro hn
    rw [ho, (lookup_none _ h1 n).mpr hn]
    simp
  · intro hn
    rw [ha, (lookup_none _ h2 a).mpr hn]
    simp
  · intro m p hm
    rw [ho]
    split_ifs <;> simp [hm]
  · intro m p hm
    rw [ha]
    split_ifs <;> simp [hm]
  · intro m p hm
    rw [ho] at hm
    split_ifs at hm
    · exact Or.inl hm
    · simpa using hm
  · intro m p hm
    rw [ha] at hm
    split_ifs at hm
    · exact Or.inl hm
    · simpa using hm

/-- The table of aqsis is a good one. -/
theorem aqsis_good : Good aqsisTable := by
  have h1 : ∀ p ∈ aqsisTable.options, p.1 ≠ [] ∧ ':' ∉ p.1 ∧ '=' ∉ p.1 := by decide +kernel
  have h2 : ∀ p ∈ aqsisTable.aliases, p.1 ≠ [] ∧ ':' ∉ p.1 ∧ '=' ∉ p.1 := by decide +kernel
  have h3 : ∀ p ∈ aqsisTable.options,
      (¬ (p.2.kind = .ints ∨ p.2.kind = .floats ∨ p.2.kind = .strs)) → p.2.sep = .none := by
    decide +kernel
  exact ⟨by decide +kernel, by decide +kernel, fun n o h => h1 (n, o) h, fun n o h => h2 (n, o) h,
    fun n o h => h3 (n, o) h⟩

example : Means aqsisTable "nohelp".toList "help".toList ⟨.flag true, .none⟩ true :=
  (find_iff _ aqsis_good _ _ _ _).mp (by decide +kernel)

example : Means aqsisTable "nc".toList "nocolor".toList ⟨.flag true, .none⟩ false :=
  (find_iff _ aqsis_good _ _ _ _).mp (by decide +kernel)

/-! ### Command lines -/

/-- C85: a command line of the documented form is parsed as documented.  It is an
error exactly if an option is given arguments it does not take; otherwise what is
left over and the variables are as the command line says.  Missing: more arguments
for a counted option than its count, and arguments that follow a counted option
which has all of its arguments (see the theorems below). -/
theorem C85_parse_partial {F : Type} (strtod : Txt → Option F) (t : Table) (ht : Good t)
    (dyn : Txt → Dyn F) (args : List Txt) (evs : List (Txt × Txt)) (fs : List Txt)
    (hl : Line t none args evs fs)
    (hc : ∀ n o, (n, o) ∈ t.options → o.sep = .argv →
      (dyn n).count = -1 ∨ ((argsOf n evs).length : ℤ) ≤ (dyn n).count) :
    ∃ r, parse strtod t dyn args = .ok r ∧
      (r.err = none ↔ ∀ n o, (n, o) ∈ t.options → ∃ v, Takes strtod o (dyn n).val (argsOf n evs) v) ∧
      (r.err = none → r.left = fs ∧ ∀ n o, (n, o) ∈ t.options →
        Takes strtod o (dyn n).val (argsOf n evs) (r.dyn n).val) := by
  have nn : EaterOk t none := by intro n o h; cases h
  obtain ⟨r, hr, hE⟩ := line_ends strtod t ht none args evs fs hl nn
    { dyn := fun n => (dyn n).reset, left := [], eater := none, oneshot := none,
      endOfOptions := false, eaterName := [], err := none } ⟨rfl, rfl, rfl, rfl⟩ hc
  have hev := line_mem t none args evs fs hl nn
  have hF := feedAll_each strtod t ht evs hev (fun n => (dyn n).reset)
  have hT := fun n o (hm : (n, o) ∈ t.options) =>
    feed_takes strtod o (ht.sep n o hm) (argsOf n evs) (dyn n).reset rfl
  unfold parse
  rw [hr]
  refine ⟨_, rfl, ?_, ?_⟩
  · cases hd : feedAll strtod t (fun n => (dyn n).reset) evs with
    | none =>
      obtain ⟨e1, e2⟩ := hE.bad hd
      obtain ⟨n, o, hm, hn⟩ := hF.2 hd
      simp only [e2, Option.isSome_none, Bool.false_eq_true, and_false, if_false]
      constructor
      · intro h
        rw [h] at e1
        cases e1
      · intro h
        obtain ⟨v, hv⟩ := h n o hm
        exact absurd hv ((hT n o hm).2 hn v)
    | some dyn' =>
      obtain ⟨_, _, e3, e4⟩ := hE.good dyn' hd
      simp only [e3, e4, Option.isSome_none, Bool.false_eq_true, and_false, if_false, true_iff]
      intro n o hm
      exact ⟨_, (hT n o hm).1 _ (hF.1 dyn' hd n o hm)⟩
  · intro herr
    cases hd : feedAll strtod t (fun n => (dyn n).reset) evs with
    | none =>
      obtain ⟨e1, e2⟩ := hE.bad hd
      simp only [e2, Option.isSome_none, Bool.false_eq_true, and_false, if_false] at herr
      rw [herr] at e1
      cases e1
    | some dyn' =>
      obtain ⟨e1, e2, _, _⟩ := hE.good dyn' hd
      refine ⟨by simpa using e2, ?_⟩
      intro n o hm
      simp only [e1]
      exact (hT n o hm).1 _ (hF.1 dyn' hd n o hm)

/-- `aqsis a.rib -nohelp -v=2 -res 640 480 -- b.rib` -/
example : Line aqsisTable none
    ["a.rib".toList, "-nohelp".toList, "-v=2".toList, "-res".toList, "640".toList, "480".toList,
      "--".toList, "b.rib".toList]
    [("help".toList, "no".toList), ("verbose".toList, "2".toList), ("res".toList, "640".toList),
      ("res".toList, "480".toList)]
    ["a.rib".toList, "b.rib".toList] := by
  have m1 : Means aqsisTable "nohelp".toList "help".toList ⟨.flag true, .none⟩ true :=
    (find_iff _ aqsis_good _ _ _ _).mp (by decide +kernel)
  have m2 : Means aqsisTable "v".toList "verbose".toList ⟨.int, .none⟩ false :=
    (find_iff _ aqsis_good _ _ _ _).mp (by decide +kernel)
  have m3 : Means aqsisTable "res".toList "res".toList ⟨.ints, .argv⟩ false :=
    (find_iff _ aqsis_good _ _ _ _).mp (by decide +kernel)
  refine .file _ _ _ _ (Or.inr (by decide +kernel)) ?_
  refine .flag none "-nohelp".toList "nohelp".toList "help".toList ⟨.flag true, .none⟩ true _ _ [] _
    (.short _ ⟨by decide +kernel, by decide +kernel⟩ (fun h => absurd h (by decide +kernel)) (by decide +kernel)) m1
    ⟨_, rfl⟩ ?_
  refine .eq none "-v".toList "v".toList "verbose".toList ⟨.int, .none⟩ false '=' "2".toList _ _ [] _
    (.short _ ⟨by decide +kernel, by decide +kernel⟩ (fun h => absurd h (by decide +kernel)) (by decide +kernel)) m2
    (by rintro ⟨b, h⟩; cases h) (Or.inr rfl) ?_
  refine .many none "-res".toList "res".toList "res".toList ⟨.ints, .argv⟩ false _ _ [] _
    (.short _ ⟨by decide +kernel, by decide +kernel⟩ (fun h => absurd h (by decide +kernel)) (by decide +kernel)) m3
    (by rintro ⟨b, h⟩; cases h) rfl ?_
  refine .more _ _ _ _ _ _ (Or.inr (by decide +kernel)) ?_
  refine .more _ _ _ _ _ _ (Or.inr (by decide +kernel)) ?_
  exact .rest _ _

/-- C85: what is parsed without an error is a command line of the documented form.
Missing: tables with counted options. -/
theorem C85_accepts_partial {F : Type} (strtod : Txt → Option F) (t : Table) (ht : Good t)
    (dyn : Txt → Dyn F) (hfree : ∀ n o, (n, o) ∈ t.options → o.sep = .argv → (dyn n).count = -1)
    (args : List Txt) (r : Outcome F) (hp : parse strtod t dyn args = .ok r) (he : r.err = none) :
    ∃ evs fs, Line t none args evs fs := by
  have nn : EaterOk t none := by intro n o h; cases h
  unfold parse at hp
  generalize hst : steps strtod t
    { dyn := fun n => (dyn n).reset, left := [], eater := none, oneshot := none,
      endOfOptions := false, eaterName := [], err := none } args = res at hp
  cases res with
  | readPastEnd => cases hp
  | ok s =>
    simp only [Res.ok.injEq] at hp
    subst hp
    simp only at he
    by_cases hh : s.err.isNone = true ∧ s.oneshot.isSome = true
    · rw [if_pos hh] at he
      cases he
    · rw [if_neg hh] at he
      have ho : s.oneshot = none := by
        by_contra hc
        refine hh ⟨by simp [he], ?_⟩
        cases h : s.oneshot with
        | none => exact absurd h hc
        | some _ => rfl
      exact line_back strtod t ht args.length args le_rfl none
        { dyn := fun n => (dyn n).reset, left := [], eater := none, oneshot := none,
          endOfOptions := false, eaterName := [], err := none }
        s nn ⟨rfl, rfl, rfl, rfl⟩ hfree hst he ho

/-- What `aqsis` gets out of a command line. -/
def aqsisErr (args : List String) : Option (Option Err × List Txt × List (Atom Unit)) :=
  match parse (fun _ => some ()) aqsisTable aqsisDyn (args.map String.toList) with
  | .ok r => some (r.err, r.left, (r.dyn "res".toList).val)
  | .readPastEnd => none

/-- C85: nothing is left over that was not an argument, nothing twice, and in the
order of the arguments: for any command line, good or bad. -/
theorem C85_leftovers {F : Type} (strtod : Txt → Option F) (t : Table) (dyn : Txt → Dyn F)
    (args : List Txt) (r : Outcome F) (hp : parse strtod t dyn args = .ok r) :
    r.left.Sublist args := by
  have hb : ∀ (arg : Txt) (cs : List Char) (s : St F), (bundle strtod t arg cs s).left = s.left := by
    intro arg cs
    induction cs with
    | nil => intro s; rfl
    | cons c cs ih =>
      intro s
      rw [bundle]
      split
      · rfl
      · rename_i n o no _
        by_cases h : o.kind.takesArg = true
        · rw [if_pos h]
        · rw [if_neg h]
          simp only
          generalize (if no = true then ['n', 'o'] else ([] : Txt)) = x
          by_cases h2 : (s.give strtod n o x arg).err.isSome = true
          · rw [if_pos h2]; rfl
          · rw [if_neg h2, ih]; rfl
  have hu : ∀ (s : St F) (arg tail n : Txt) (o : Opt) (no : Bool),
      (useOption strtod s arg tail n o no).left = s.left := by
    intro s arg tail n o no
    unfold useOption
    cases tail <;> simp only <;> split_ifs <;> rfl
  have hsg : ∀ (s : St F) (arg rest : Txt) (l : Nat),
      (single strtod t s arg rest l).left = s.left ∨
      (single strtod t s arg rest l).left = s.left ++ [arg] := by
    intro s arg rest l
    unfold single
    split
    · left; exact hu _ _ _ _ _ _
    · split
      · split_ifs
        · left; exact hu _ _ _ _ _ _
        · right; rfl
        · left; rfl
      · split_ifs
        · right; rfl
        · left; rfl
  have hn : ∀ (s : St F) (arg rest : Txt) (k : Nat),
      (named strtod t s arg rest k).left = s.left ∨
      (named strtod t s arg rest k).left = s.left ++ [arg] := by
    intro s arg rest k
    unfold named
    simp only
    split_ifs
    · left; exact hb _ _ _
    · have := hsg (bundle strtod t arg (rest.take (nameLen rest - 1)) s) arg
        (rest.drop (nameLen rest - 1)) 1
      rw [hb] at this
      exact this
    · exact hsg _ _ _ _
  have hone : ∀ (s s' : St F) (arg : Txt), step strtod t s arg = .ok s' →
      s'.left = s.left ∨ s'.left = s.left ++ [arg] := by
    intro s s' arg h
    unfold step at h
    by_cases h1 : s.err.isSome = true
    · rw [if_pos h1] at h; cases h; left; rfl
    rw [if_neg h1] at h
    by_cases h2 : s.endOfOptions = true
    · rw [if_pos h2] at h; cases h; right; rfl
    · rw [if_neg h2] at h
      cases ho : s.oneshot with
      | some p =>
        rw [ho] at h
        cases h
        left; rfl
      | none =>
        rw [ho] at h
        simp only at h
        by_cases hpl : (isPlain arg && hungry s) = true
        · rw [if_pos hpl] at h
          cases he : s.eater with
          | none => rw [he] at h; cases h; right; rfl
          | some p => rw [he] at h; cases h; left; rfl
        · rw [if_neg hpl] at h
          cases arg with
          | nil => cases h
          | cons c rest =>
            cases h
            unfold dashed
            split
            · left; rfl
            · exact hn { s with oneshot := none, eater := none } _ _ _
            · exact hn { s with oneshot := none, eater := none } _ _ _
  have hall : ∀ (as : List Txt) (s s' : St F), steps strtod t s as = .ok s' →
      ∃ fl, s'.left = s.left ++ fl ∧ fl.Sublist as := by
    intro as
    induction as with
    | nil =>
      intro s s' h
      cases h
      exact ⟨[], by simp, .slnil⟩
    | cons a as ih =>
      intro s s' h
      rw [steps] at h
      cases hst : step strtod t s a with
      | readPastEnd => rw [hst] at h; cases h
      | ok s1 =>
        rw [hst] at h
        obtain ⟨fl, h1, h2⟩ := ih s1 s' h
        rcases hone s s1 a hst with e | e
        · exact ⟨fl, by rw [h1, e], .cons a h2⟩
        · exact ⟨a :: fl, by rw [h1, e]; simp, .cons_cons a h2⟩
  unfold parse at hp
  split at hp
  · cases hp
  · rename_i s hst
    cases hp
    obtain ⟨fl, h1, h2⟩ := hall _ _ _ hst
    simp only [List.nil_append] at h1
    simp only
    rw [h1]
    exact h2

example : aqsisErr ["a.rib", "-xyz", "-help", "b.rib"] =
    some (none, ["a.rib".toList, "-xyz".toList, "b.rib".toList], []) := by decide +kernel

/-! ### Where it goes wrong -/

/-- C85: after a counted option has its arguments the next argument is read as an
option although it is none: `aqsis -res 640 480 avatar.rib` wants to set the
verbosity to `atar.rib`, while `aqsis -res 640 480 batman.rib` is fine. -/
theorem C85_file_violated :
    aqsisErr ["-res", "640", "480", "avatar.rib"] =
      some (some (.handler "avatar.rib".toList (.badInt "atar.rib".toList)), [],
        [.int 640, .int 480]) ∧
    aqsisErr ["-res", "640", "480", "batman.rib"] =
      some (none, ["batman.rib".toList], [.int 640, .int 480]) :=
  ⟨by decide +kernel, by decide +kernel⟩

/-- C85: an empty argument there is read past its end. -/
theorem C85_empty_violated : aqsisErr ["-res", "640", "480", ""] = none := by decide +kernel

/-- C85: counts are not limits: given often enough an option with a count takes any
number of arguments, the files among them; and one argument instead of two is taken
too. -/
theorem C85_count_violated :
    aqsisErr ["-res=1", "-res=2", "-res=3", "4", "5"] =
      some (none, [], [.int 1, .int 2, .int 3, .int 4, .int 5]) ∧
    aqsisErr ["-res", "640"] = some (none, [], [.int 640]) :=
  ⟨by decide +kernel, by decide +kernel⟩

/-- C85: counts are not set back, so a parser is not good for a second command line:
the second time `640` is read as an option. -/
theorem C85_again_violated :
    ∃ t : Table, ∃ dyn : Txt → Dyn Unit, Good t ∧
      (∃ r, parse (fun _ => some ()) t dyn (["-res", "640", "480"].map String.toList) = .ok r ∧
        r.err = none ∧
        ∃ q, parse (fun _ => some ()) t r.dyn (["-res", "640", "480"].map String.toList) = .ok q ∧
          q.err = some (.unrecognized "640".toList)) := by
  refine ⟨⟨false, false, [("res".toList, ⟨.ints, .argv⟩)], []⟩, fun _ => ⟨2, false, []⟩, ?_, _, rfl,
    by decide +kernel, _, rfl, by decide +kernel⟩
  constructor
  · decide +kernel
  · decide +kernel
  · intro n o h
    simp only [List.mem_singleton, Prod.mk.injEq] at h
    obtain ⟨rfl, rfl⟩ := h
    decide +kernel
  · intro n o h
    simp at h
  · intro n o h
    simp only [List.mem_singleton, Prod.mk.injEq] at h
    obtain ⟨rfl, rfl⟩ := h
    decide +kernel

end Verif.Util.Args
