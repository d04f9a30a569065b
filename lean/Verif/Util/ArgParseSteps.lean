import Verif.Util.ArgParseFeed

/-
Lemmas: names, and the arguments of a command line one after the other.
-/
namespace Verif.Util.Args
open Spec

variable {F : Type} (strtod : Txt → Option F)

/-! ### Names -/

theorem lookup_iff {β : Type} (l : List (Txt × β)) (h : (l.map Prod.fst).Nodup) (n : Txt) (b : β) :
    l.lookup n = some b ↔ (n, b) ∈ l := by
  induction l with
  | nil => simp
  | cons x l ih =>
    obtain ⟨m, c⟩ := x
    simp only [List.map_cons, List.nodup_cons] at h
    rw [List.lookup_cons]
    by_cases hm : n = m
    · subst hm
      simp only [beq_self_eq_true, Option.some.injEq, List.mem_cons, Prod.mk.injEq, true_and]
      constructor
      · rintro rfl; exact Or.inl rfl
      · rintro (rfl | hh)
        · rfl
        · exact absurd (List.mem_map.mpr ⟨_, hh, rfl⟩) h.1
    · have : (n == m) = false := by simpa using hm
      simp only [this, List.mem_cons, Prod.mk.injEq, hm, false_and, false_or]
      exact ih h.2

theorem lookup_none {β : Type} (l : List (Txt × β)) (h : (l.map Prod.fst).Nodup) (n : Txt) :
    l.lookup n = none ↔ ∀ b, (n, b) ∉ l := by
  constructor
  · intro hn b hb
    rw [(lookup_iff l h n b).mpr hb] at hn
    cases hn
  · intro hb
    cases hl : l.lookup n with
    | none => rfl
    | some b => exact absurd ((lookup_iff l h n b).mp hl) (hb b)

theorem target_iff (t : Table) (ht : Good t) (a r : Txt) : Target t a r ↔ t.unalias a = r := by
  unfold Table.unalias
  constructor
  · intro h
    cases h with
    | via r h => rw [(lookup_iff _ ht.aliasUniq a r).mpr h]; rfl
    | self h => rw [(lookup_none _ ht.aliasUniq a).mpr h]; rfl
  · intro h
    cases hl : t.aliases.lookup a with
    | none =>
      rw [hl] at h
      simp only [Option.getD_none] at h
      subst h
      exact .self a ((lookup_none _ ht.aliasUniq a).mp hl)
    | some r' =>
      rw [hl] at h
      simp only [Option.getD_some] at h
      subst h
      exact .via a r' ((lookup_iff _ ht.aliasUniq a r').mp hl)

theorem find_iff (t : Table) (ht : Good t) (name n : Txt) (o : Opt) (no : Bool) :
    t.findOption name = some (n, o, no) ↔ Means t name n o no := by
  constructor
  · intro h
    unfold Table.findOption at h
    simp only at h
    have htg : Target t name (t.unalias name) := (target_iff t ht _ _).mpr rfl
    cases hl : t.options.lookup (t.unalias name) with
    | some o' =>
      rw [hl] at h
      simp only [Option.some.injEq, Prod.mk.injEq] at h
      obtain ⟨rfl, rfl, rfl⟩ := h
      exact .plain _ _ _ htg ((lookup_iff _ ht.opts _ _).mp hl)
    | none =>
      rw [hl] at h
      simp only at h
      split_ifs at h with hno
      have hsplit : t.unalias name = 'n' :: 'o' :: (t.unalias name).drop 2 := by
        have := List.take_append_drop 2 (t.unalias name)
        rw [hno] at this
        exact this.symm
      cases hl2 : t.options.lookup (t.unalias ((t.unalias name).drop 2)) with
      | none => rw [hl2] at h; cases h
      | some o' =>
        rw [hl2] at h
        simp only at h
        split_ifs at h with hneg
        simp only [Option.some.injEq, Prod.mk.injEq] at h
        obtain ⟨rfl, rfl, rfl⟩ := h
        obtain ⟨k, s⟩ := o'
        cases k with
        | flag b =>
          simp only [Kind.negatable] at hneg
          subst hneg
          refine .negated name ((t.unalias name).drop 2) _ s ?_ ?_ ?_ ?_
          · rw [← hsplit]; exact htg
          · rw [← hsplit]; exact (lookup_none _ ht.opts _).mp hl
          · exact (target_iff t ht _ _).mpr rfl
          · exact (lookup_iff _ ht.opts _ _).mp hl2
        | _ => simp [Kind.negatable] at hneg
  · intro h
    unfold Table.findOption
    simp only
    cases h with
    | plain _ _ h1 h2 =>
      rw [(target_iff t ht _ _).mp h1, (lookup_iff _ ht.opts _ _).mpr h2]
    | negated m _ s h1 h2 h3 h4 =>
      rw [(target_iff t ht _ _).mp h1, (lookup_none _ ht.opts _).mpr h2]
      simp only [List.take_succ_cons, List.take_zero, if_true, List.drop_succ_cons, List.drop_zero]
      rw [(target_iff t ht _ _).mp h3, (lookup_iff _ ht.opts _ _).mpr h4]
      simp [Kind.negatable]

theorem find_none (t : Table) (ht : Good t) (name : Txt) :
    t.findOption name = none ↔ ∀ n o no, ¬ Means t name n o no := by
  constructor
  · intro h n o no hm
    rw [(find_iff t ht name n o no).mpr hm] at h
    cases h
  · intro h
    cases hf : t.findOption name with
    | none => rfl
    | some x =>
      obtain ⟨n, o, no⟩ := x
      exact absurd ((find_iff t ht name n o no).mp hf) (h n o no)

theorem means_mem (t : Table) (name n : Txt) (o : Opt) (no : Bool) (h : Means t name n o no) :
    (n, o) ∈ t.options := by
  cases h with
  | plain _ _ _ h => exact h
  | negated _ _ _ _ _ _ h => exact h

theorem takesArg_iff (k : Kind) : k.takesArg = false ↔ IsFlag k := by
  cases k <;> simp [Kind.takesArg, IsFlag]

theorem means_nil (t : Table) (ht : Good t) (n : Txt) (o : Opt) (no : Bool) :
    ¬ Means t [] n o no := by
  intro h
  have key : ∀ r, Target t [] r → r = [] := by
    intro r hr
    cases hr with
    | via _ h => exact absurd rfl (ht.aliasName _ _ h).1
    | self => rfl
  cases h with
  | plain _ _ h1 h2 =>
    have := key _ h1
    subst this
    exact (ht.optName _ _ h2).1 rfl
  | negated m _ s h1 => simpa using key _ h1

/-! ### Events -/

/-- The options after a list of arguments given to them. -/
def feedAll (t : Table) : (Txt → Dyn F) → List (Txt × Txt) → Option (Txt → Dyn F)
  | dyn, [] => some dyn
  | dyn, (n, a) :: evs =>
    match t.options.lookup n with
    | none => none
    | some o => (toOpt (handleSplit strtod o (dyn n) a)).bind fun d' =>
        feedAll t (Function.update dyn n d') evs

theorem feedAll_cons (t : Table) (ht : Good t) (dyn : Txt → Dyn F) (n a : Txt) (o : Opt)
    (evs : List (Txt × Txt)) (hm : (n, o) ∈ t.options) :
    feedAll strtod t dyn ((n, a) :: evs) =
      (toOpt (handleSplit strtod o (dyn n) a)).bind fun d' =>
        feedAll strtod t (Function.update dyn n d') evs := by
  rw [feedAll, (lookup_iff _ ht.opts n o).mpr hm]

theorem feedAll_append (t : Table) (as bs : List (Txt × Txt)) : ∀ dyn : Txt → Dyn F,
    feedAll strtod t dyn (as ++ bs) =
      (feedAll strtod t dyn as).bind fun dyn' => feedAll strtod t dyn' bs := by
  induction as with
  | nil => intro dyn; rfl
  | cons a as ih =>
    intro dyn
    obtain ⟨n, a⟩ := a
    rw [List.cons_append, feedAll, feedAll]
    cases t.options.lookup n with
    | none => rfl
    | some o =>
      simp only
      rw [Option.bind_assoc]
      congr 1
      funext d'
      exact ih _

/-- The values given to the counted options fit. -/
def Cnt (t : Table) (dyn : Txt → Dyn F) (evs : List (Txt × Txt)) : Prop :=
  ∀ n o, (n, o) ∈ t.options → o.sep = .argv →
    (dyn n).count = -1 ∨ ((argsOf n evs).length : ℤ) ≤ (dyn n).count

theorem argsOf_cons (n m a : Txt) (evs : List (Txt × Txt)) :
    argsOf n ((m, a) :: evs) = if m = n then a :: argsOf n evs else argsOf n evs := by
  unfold argsOf
  by_cases h : m = n
  · simp [h]
  · simp [h]

theorem count_argv (t : Table) (ht : Good t) (n : Txt) (o : Opt) (hm : (n, o) ∈ t.options)
    (hs : o.sep = .argv) (d d' : Dyn F) (a : Txt)
    (h : toOpt (handleSplit strtod o d a) = some d') : d'.count = countDown d.count := by
  have hk : o.kind = .ints ∨ o.kind = .floats ∨ o.kind = .strs := by
    by_contra hc
    rw [ht.sep n o hm hc] at hs
    cases hs
  rw [split_values strtod o d a [a] (by rw [hs]; exact .argv a), feedP_cons] at h
  rcases handleArg_vec strtod o.kind hk d a with ⟨v, _, e⟩ | ⟨e, _⟩
  · rw [e] at h
    simp only [Option.bind_some, feedP] at h
    cases h
    rfl
  · rw [e] at h
    cases h

theorem Cnt_after (t : Table) (ht : Good t) (as bs : List (Txt × Txt)) :
    ∀ (dyn dyn' : Txt → Dyn F), feedAll strtod t dyn as = some dyn' → Cnt t dyn (as ++ bs) →
      Cnt t dyn' bs := by
  induction as with
  | nil =>
    intro dyn dyn' h hc
    cases h
    exact hc
  | cons x as ih =>
    intro dyn dyn' h hc
    obtain ⟨n, a⟩ := x
    rw [feedAll] at h
    cases hl : t.options.lookup n with
    | none => rw [hl] at h; cases h
    | some o =>
      rw [hl] at h
      simp only at h
      have hm := (lookup_iff _ ht.opts n o).mp hl
      cases hd : toOpt (handleSplit strtod o (dyn n) a) with
      | none => rw [hd] at h; cases h
      | some d' =>
        rw [hd, Option.bind_some] at h
        refine ih _ _ h ?_
        intro m p hmp hp
        have := hc m p hmp hp
        rw [List.cons_append, argsOf_cons] at this
        by_cases hnm : n = m
        · subst hnm
          have hop : o = p := by
            have := (lookup_iff _ ht.opts n p).mpr hmp
            rw [hl] at this
            exact Option.some.inj this
          subst hop
          rw [Function.update_self, count_argv strtod t ht n o hm hp _ _ _ hd]
          rw [if_pos rfl] at this
          simp only [List.length_cons] at this
          unfold countDown
          split_ifs with h1 <;> push_cast at this <;> omega
        · rw [if_neg hnm] at this
          rw [Function.update_of_ne (Ne.symm hnm)]
          exact this

/-! ### One argument -/

/-- Waiting for an argument, with the eater `e`. -/
structure Ready (s : St F) (e : Option (Txt × Opt)) : Prop where
  err : s.err = none
  eoo : s.endOfOptions = false
  oneshot : s.oneshot = none
  eater : s.eater = e

/-- From `s` on the events happened, the arguments `fl` were left over, and the
eater is `e` now; or one of the events went wrong. -/
structure After (t : Table) (s r : St F) (evs : List (Txt × Txt)) (fl : List Txt)
    (e : Option (Txt × Opt)) : Prop where
  good : ∀ dyn', feedAll strtod t s.dyn evs = some dyn' →
    r.dyn = dyn' ∧ r.left = s.left ++ fl ∧ Ready r e
  bad : feedAll strtod t s.dyn evs = none → r.err.isSome ∧ r.oneshot = none

theorem After.trans {t : Table} {s s1 r : St F} {evs evs1 : List (Txt × Txt)} {fl fl1 : List Txt}
    {e e1 : Option (Txt × Opt)} (h : After strtod t s s1 evs fl e)
    (he : s1.err.isSome → r = s1)
    (h1 : Ready s1 e → After strtod t s1 r evs1 fl1 e1) :
    After strtod t s r (evs ++ evs1) (fl ++ fl1) e1 := by
  constructor
  · intro dyn' hd
    rw [feedAll_append] at hd
    cases hf : feedAll strtod t s.dyn evs with
    | none => rw [hf] at hd; cases hd
    | some dyn1 =>
      rw [hf, Option.bind_some] at hd
      obtain ⟨e1, e2, e3⟩ := h.good _ hf
      obtain ⟨a1, a2, a3⟩ := (h1 e3).good dyn' (by rw [e1]; exact hd)
      exact ⟨a1, by rw [a2, e2, List.append_assoc], a3⟩
  · intro hd
    rw [feedAll_append] at hd
    cases hf : feedAll strtod t s.dyn evs with
    | none =>
      have := h.bad hf
      rw [he this.1]
      exact this
    | some dyn1 =>
      rw [hf, Option.bind_some] at hd
      obtain ⟨e1, e2, e3⟩ := h.good _ hf
      exact (h1 e3).bad (by rw [e1]; exact hd)

theorem After.refl (t : Table) (s : St F) (e : Option (Txt × Opt)) (h : Ready s e) :
    After strtod t s s [] [] e := by
  constructor
  · intro dyn' hd
    cases hd
    exact ⟨rfl, by simp, h⟩
  · intro hd; cases hd

theorem give_after (t : Table) (ht : Good t) (s : St F) (e : Option (Txt × Opt)) (hr : Ready s e)
    (n : Txt) (o : Opt) (a pre : Txt) (hm : (n, o) ∈ t.options) :
    After strtod t s (s.give strtod n o a pre) [(n, a)] [] e := by
  constructor
  · intro dyn' hd
    rw [feedAll_cons strtod t ht _ n a o _ hm] at hd
    unfold St.give
    generalize handleSplit strtod o (s.dyn n) a = r at *
    obtain ⟨d, x⟩ := r
    cases x with
    | none =>
      simp only [toOpt, Option.bind_some, feedAll, Option.some.injEq] at hd
      exact ⟨hd, by simp, ⟨rfl, hr.eoo, hr.oneshot, hr.eater⟩⟩
    | some x => cases hd
  · intro hd
    rw [feedAll_cons strtod t ht _ n a o _ hm] at hd
    unfold St.give
    generalize handleSplit strtod o (s.dyn n) a = r at *
    obtain ⟨d, x⟩ := r
    cases x with
    | none => simp [toOpt, feedAll] at hd
    | some x => exact ⟨rfl, hr.oneshot⟩

theorem bundle_after (t : Table) (ht : Good t) (arg : Txt) (e : Option (Txt × Opt))
    (cs : List Char) (evs : List (Txt × Txt)) (h : Flags t cs evs) :
    ∀ s : St F, Ready s e → After strtod t s (bundle strtod t arg cs s) evs [] e := by
  induction h with
  | nil => intro s hs; exact After.refl strtod t s e hs
  | cons c cs n o no evs hm hf _ ih =>
    intro s hs
    rw [bundle, (find_iff t ht _ _ _ _).mpr hm]
    simp only [(takesArg_iff _).mpr hf, Bool.false_eq_true, if_false]
    have hg := give_after strtod t ht s e hs n o (flagText no) arg (means_mem t _ _ _ _ hm)
    have := After.trans strtod (evs1 := evs) (fl1 := []) (e1 := e)
      (r := if (s.give strtod n o (flagText no) arg).err.isSome then s.give strtod n o (flagText no) arg
        else bundle strtod t arg cs (s.give strtod n o (flagText no) arg)) hg
      (by intro h; rw [if_pos h])
      (by intro h; rw [if_neg (by simp [h.err])]; exact ih _ h)
    exact this

theorem nameLen_eq (name x : Txt) (h : NoSep name) (hx : Tail x) :
    nameLen (name ++ x) = name.length := by
  unfold nameLen
  induction name with
  | nil =>
    rcases hx with rfl | hx | hx
    · rfl
    · cases x with
      | nil => rfl
      | cons c x => simp at hx; simp [hx]
    · cases x with
      | nil => rfl
      | cons c x => simp at hx; simp [hx]
  | cons c name ih =>
    have h1 : c ≠ ':' := fun e => h.1 (by simp [e])
    have h2 : c ≠ '=' := fun e => h.2 (by simp [e])
    have : (c != ':' && c != '=') = true := by simp [h1, h2]
    rw [List.cons_append, List.takeWhile_cons, if_pos this]
    simp only [List.length_cons]
    rw [ih ⟨fun hh => h.1 (by simp [hh]), fun hh => h.2 (by simp [hh])⟩]

theorem isPlain_iff (a : Txt) : isPlain a = true ↔ Plain a := by
  unfold isPlain Plain
  split
  · simp
  · rename_i rest h
    constructor
    · intro h; cases h
    · rintro (h' | h')
      · exact absurd h' (by intro e; injection e with _ e; exact h (by simp [e]))
      · simp at h'
  · rename_i h1 h2
    simp only [true_iff]
    right
    intro h
    cases a with
    | nil => simp at h
    | cons c a =>
      simp only [List.head?_cons, Option.some.injEq] at h
      subst h
      exact h2 a rfl

theorem dashed_long (t : Table) (s : St F) (arg rest : Txt) (h : rest ≠ []) :
    dashed strtod t s arg ('-' :: rest) = named strtod t s arg rest 2 := by
  cases rest with
  | nil => exact absurd rfl h
  | cons c rest => simp [dashed]

theorem dashed_short (t : Table) (s : St F) (arg rest : Txt) (h : rest.head? ≠ some '-') :
    dashed strtod t s arg rest = named strtod t s arg rest 1 := by
  unfold dashed
  split
  · simp at h
  · simp at h
  · rfl

/-- The front of an option is read as it is meant. -/
theorem head_after (t : Table) (ht : Good t) (s : St F) (hs : Ready s none) (hd : Txt)
    (evs0 : List (Txt × Txt)) (name x : Txt) (h : Head t hd evs0 name) (hx : Tail x)
    (hne : name ++ x ≠ []) (arg : Txt) :
    ∃ rest, hd ++ x = '-' :: rest ∧ ¬ Plain (hd ++ x) ∧
      ∃ s', After strtod t s s' evs0 [] none ∧
        dashed strtod t s arg rest =
          if s'.err.isSome then s' else single strtod t s' arg (name ++ x) name.length := by
  cases h with
  | long name hn =>
    refine ⟨'-' :: (name ++ x), by simp, ?_, s, After.refl strtod t s none hs, ?_⟩
    · rintro (h | h) <;> simp at h
    · rw [dashed_long strtod t s arg _ hne, if_neg (by simp [hs.err])]
      unfold named
      simp only
      rw [nameLen_eq name x hn hx, if_neg (by simp)]
  | short name hn hc hh =>
    have hh' : (name ++ x).head? ≠ some '-' := by
      cases name with
      | nil =>
        rcases hx with rfl | hx | hx
        · simp
        · simp [hx]
        · simp [hx]
      | cons c name => simpa using hh
    refine ⟨name ++ x, by simp, ?_, s, After.refl strtod t s none hs, ?_⟩
    · rintro (h | h)
      · simp only [List.cons_append, List.cons.injEq, true_and] at h
        exact hne h
      · simp at h
    · rw [dashed_short strtod t s arg _ hh', if_neg (by simp [hs.err])]
      unfold named
      simp only
      rw [nameLen_eq name x hn hx, if_neg]
      rintro ⟨h1, _, h3⟩
      have := hc h1
      omega
  | combined cs c evs hc hcs hn hh hf =>
    have hh' : (cs ++ [c] ++ x).head? ≠ some '-' := by
      cases cs with
      | nil => exact absurd rfl hcs
      | cons d cs => simpa using hh
    refine ⟨cs ++ [c] ++ x, by simp, ?_, bundle strtod t arg cs s,
      bundle_after strtod t ht arg none cs _ hf s hs, ?_⟩
    · rintro (h | h)
      · simp at h
      · simp at h
    · rw [dashed_short strtod t s arg _ hh']
      unfold named
      simp only
      have hl : cs.length ≥ 1 := by
        cases cs with
        | nil => exact absurd rfl hcs
        | cons d cs => simp
      rw [nameLen_eq (cs ++ [c]) x hn hx, if_pos (by simp [hc]; omega)]
      have e1 : (cs ++ [c] ++ x).take ((cs ++ [c]).length - 1) = cs := by simp
      have e2 : (cs ++ [c] ++ x).drop ((cs ++ [c]).length - 1) = [c] ++ x := by simp
      rw [e1, e2]
      rfl

end Verif.Util.Args
