import Verif.Util.ArgParseSteps

/-
Lemmas: a command line of the documented form is parsed as documented.
-/
namespace Verif.Util.Args
open Spec

variable {F : Type} (strtod : Txt → Option F)

theorem single_found (t : Table) (ht : Good t) (s : St F) (arg name x n : Txt) (o : Opt) (no : Bool)
    (h : Means t name n o no) :
    single strtod t s arg (name ++ x) name.length = useOption strtod s arg x n o no := by
  unfold single
  rw [List.take_left, (find_iff t ht _ _ _ _).mpr h]
  simp only [List.drop_left]

theorem use_flag (t : Table) (ht : Good t) (s : St F) (e : Option (Txt × Opt)) (hs : Ready s e)
    (arg n : Txt) (o : Opt) (no : Bool) (hm : (n, o) ∈ t.options) (hf : IsFlag o.kind) :
    After strtod t s (useOption strtod s arg [] n o no) [(n, flagText no)] [] e := by
  unfold useOption
  rw [if_neg (by simp [(takesArg_iff _).mpr hf])]
  exact give_after strtod t ht s e hs n o (flagText no) arg hm

theorem takes_of (o : Opt) (hf : ¬ IsFlag o.kind) : o.kind.takesArg = true := by
  by_contra h
  exact hf ((takesArg_iff _).mp (by simpa using h))

theorem After.mono {t : Table} {s r r' : St F} {evs : List (Txt × Txt)} {fl : List Txt}
    {e e' : Option (Txt × Opt)} (h : After strtod t s r evs fl e) (h1 : r'.dyn = r.dyn)
    (h2 : r'.left = r.left) (h3 : r'.err = r.err) (h4 : r'.endOfOptions = r.endOfOptions)
    (h5 : r'.oneshot = r.oneshot) (h6 : r'.eater = e') : After strtod t s r' evs fl e' := by
  constructor
  · intro dyn' hd
    obtain ⟨a, b, c⟩ := h.good dyn' hd
    exact ⟨h1.trans a, h2.trans b, ⟨h3.trans c.err, h4.trans c.eoo, h5.trans c.oneshot, h6⟩⟩
  · intro hd
    obtain ⟨a, b⟩ := h.bad hd
    exact ⟨by rw [h3]; exact a, h5.trans b⟩

theorem use_value (t : Table) (ht : Good t) (s : St F) (hs : Ready s none)
    (arg n : Txt) (o : Opt) (no : Bool) (c : Char) (v : Txt) (hm : (n, o) ∈ t.options)
    (hf : ¬ IsFlag o.kind) :
    After strtod t s (useOption strtod s arg (c :: v) n o no) [(n, v)] [] (eaterOf n o) := by
  have hg := give_after strtod t ht s none hs n o v arg hm
  unfold useOption
  rw [if_pos (takes_of o hf)]
  simp only
  by_cases ha : o.sep = Sep.argv
  · rw [if_pos ha]
    refine After.mono strtod hg rfl rfl rfl rfl rfl ?_
    simp [eaterOf, ha]
  · rw [if_neg ha]
    refine After.mono strtod hg rfl rfl rfl rfl rfl ?_
    simp only [eaterOf, ha, if_false]
    exact hs.eater

theorem use_many (t : Table) (s : St F) (hs : Ready s none)
    (arg n : Txt) (o : Opt) (no : Bool) (hf : ¬ IsFlag o.kind) (ha : o.sep = .argv) :
    After strtod t s (useOption strtod s arg [] n o no) [] [] (some (n, o)) := by
  unfold useOption
  rw [if_pos (takes_of o hf)]
  simp only [ha, ne_eq, not_true_eq_false, if_false, if_true]
  exact After.mono strtod (After.refl strtod t s none hs) rfl rfl rfl rfl rfl rfl

theorem use_next (s : St F) (arg n : Txt) (o : Opt) (no : Bool) (hf : ¬ IsFlag o.kind)
    (ha : o.sep ≠ .argv) :
    useOption strtod s arg [] n o no =
      { s with oneshot := some (n, o), eaterName := arg } := by
  unfold useOption
  rw [if_pos (takes_of o hf)]
  simp only [ha, ne_eq, not_false_eq_true, if_true, if_false]

/-- The arguments of a command line, with or without an error on the way. -/
structure Ends (t : Table) (s r : St F) (evs : List (Txt × Txt)) (fs : List Txt) : Prop where
  good : ∀ dyn', feedAll strtod t s.dyn evs = some dyn' →
    r.dyn = dyn' ∧ r.left = s.left ++ fs ∧ r.err = none ∧ r.oneshot = none
  bad : feedAll strtod t s.dyn evs = none → r.err.isSome ∧ r.oneshot = none

theorem steps_err (t : Table) (s : St F) (h : s.err.isSome) : ∀ as, steps strtod t s as = .ok s := by
  intro as
  induction as with
  | nil => rfl
  | cons a as ih =>
    have : step strtod t s a = .ok s := by
      unfold step
      rw [if_pos h]
    rw [steps, this]
    exact ih

theorem steps_eoo (t : Table) (as : List Txt) : ∀ s : St F, s.err = none → s.endOfOptions = true →
    steps strtod t s as = .ok { s with left := s.left ++ as } := by
  induction as with
  | nil => intro s _ _; simp [steps]
  | cons a as ih =>
    intro s h1 h2
    have : step strtod t s a = .ok { s with left := s.left ++ [a] } := by
      unfold step
      rw [if_neg (by simp [h1]), if_pos h2]
    rw [steps, this]
    simp only
    rw [ih { s with left := s.left ++ [a] } h1 h2]
    simp

theorem step_dash (t : Table) (s : St F) (e : Option (Txt × Opt)) (hs : Ready s e) (rest : Txt)
    (hp : ¬ Plain ('-' :: rest)) :
    step strtod t s ('-' :: rest) =
      .ok (dashed strtod t { s with eater := none } ('-' :: rest) rest) := by
  unfold step
  rw [if_neg (by simp [hs.err]), if_neg (by simp [hs.eoo]), hs.oneshot]
  have : isPlain ('-' :: rest) = false := by
    by_contra h
    exact hp ((isPlain_iff _).mp (by simpa using h))
  simp [this]

/-- After an argument comes the rest of the command line. -/
theorem cont (t : Table) (ht : Good t) (s s1 : St F) (evs0 evs : List (Txt × Txt))
    (fl fs as : List Txt) (e : Option (Txt × Opt)) (h : After strtod t s s1 evs0 fl e)
    (hc : Cnt t s.dyn (evs0 ++ evs))
    (ih : ∀ s : St F, Ready s e → Cnt t s.dyn evs →
      ∃ r, steps strtod t s as = .ok r ∧ Ends strtod t s r evs fs) :
    ∃ r, steps strtod t s1 as = .ok r ∧ Ends strtod t s r (evs0 ++ evs) (fl ++ fs) := by
  cases hf : feedAll strtod t s.dyn evs0 with
  | none =>
    obtain ⟨h1, h2⟩ := h.bad hf
    refine ⟨s1, steps_err strtod t s1 h1 as, ?_, ?_⟩
    · intro dyn' hd
      rw [feedAll_append, hf] at hd
      cases hd
    · intro _
      exact ⟨h1, h2⟩
  | some dyn1 =>
    obtain ⟨h1, h2, h3⟩ := h.good dyn1 hf
    obtain ⟨r, hr, hE⟩ := ih s1 h3 (by rw [h1]; exact Cnt_after strtod t ht evs0 evs _ _ hf hc)
    refine ⟨r, hr, ?_, ?_⟩
    · intro dyn' hd
      rw [feedAll_append, hf, Option.bind_some, ← h1] at hd
      obtain ⟨a, b, c, d⟩ := hE.good dyn' hd
      exact ⟨a, by rw [b, h2, List.append_assoc], c, d⟩
    · intro hd
      rw [feedAll_append, hf, Option.bind_some, ← h1] at hd
      exact hE.bad hd

/-- One step into the front of an option. -/
theorem step_head (t : Table) (ht : Good t) (s : St F) (e : Option (Txt × Opt)) (hs : Ready s e)
    (hd : Txt) (evs0 : List (Txt × Txt)) (name x : Txt) (h : Head t hd evs0 name) (hx : Tail x)
    (hne : name ++ x ≠ []) :
    ∃ s', After strtod t s s' evs0 [] none ∧
      step strtod t s (hd ++ x) =
        .ok (if s'.err.isSome then s' else single strtod t s' (hd ++ x) (name ++ x) name.length) := by
  obtain ⟨rest, h1, h2, s', h3, h4⟩ := head_after strtod t ht { s with eater := none }
    ⟨hs.err, hs.eoo, hs.oneshot, rfl⟩ hd evs0 name x h hx hne (hd ++ x)
  refine ⟨s', ⟨h3.good, h3.bad⟩, ?_⟩
  rw [← h4, h1]
  rw [h1] at h2
  exact step_dash strtod t s e hs rest h2

theorem means_ne (t : Table) (ht : Good t) (name n : Txt) (o : Opt) (no : Bool)
    (h : Means t name n o no) (x : Txt) : name ++ x ≠ [] := by
  intro h'
  have : name = [] := (List.append_eq_nil_iff.mp h').1
  subst this
  exact means_nil t ht n o no h

/-- The eater of a line is an option with that separator. -/
def EaterOk (t : Table) (e : Option (Txt × Opt)) : Prop :=
  ∀ n o, e = some (n, o) → (n, o) ∈ t.options ∧ o.sep = .argv

theorem eaterOf_ok (t : Table) (n : Txt) (o : Opt) (h : (n, o) ∈ t.options) :
    EaterOk t (eaterOf n o) := by
  intro m p hmp
  unfold eaterOf at hmp
  split_ifs at hmp with ha
  cases hmp
  exact ⟨h, ha⟩

/-- A first character that is not an option with an argument. -/
theorem no_glue (t : Table) (ht : Good t) (name x : Txt) (hx : Tail x) (hne : name ++ x ≠ [])
    (hfl : ∀ c cs n o no, name = c :: cs → Means t [c] n o no → IsFlag o.kind)
    (n : Txt) (o : Opt) (no : Bool) (hm : Means t [(name ++ x).headD '\x00'] n o no) :
    IsFlag o.kind := by
  cases name with
  | cons c cs => exact hfl c cs n o no rfl hm
  | nil =>
    -- a name that begins with `:` or `=`
    exfalso
    have hsep : ∃ c, [c] = [([] ++ x : Txt).headD '\x00'] ∧ (c = ':' ∨ c = '=') := by
      cases x with
      | nil => exact absurd rfl hne
      | cons c x =>
        refine ⟨c, rfl, ?_⟩
        rcases hx with hx | hx | hx
        · simp at hx
        · left; simpa using hx
        · right; simpa using hx
    obtain ⟨c, hc1, hc2⟩ := hsep
    rw [← hc1] at hm
    have key : ∀ r, Target t [c] r → r = [c] := by
      intro r hr
      cases hr with
      | via _ h =>
        have := ht.aliasName _ _ h
        rcases hc2 with rfl | rfl
        · exact absurd (by simp) this.2.1
        · exact absurd (by simp) this.2.2
      | self => rfl
    cases hm with
    | plain _ _ h1 h2 =>
      have := key _ h1
      subst this
      have := ht.optName _ _ h2
      rcases hc2 with rfl | rfl
      · exact absurd (by simp) this.2.1
      · exact absurd (by simp) this.2.2
    | negated m _ sp h1 => simpa using key _ h1

/-- A command line of the documented form. -/
theorem line_ends (t : Table) (ht : Good t) (e : Option (Txt × Opt)) (as : List Txt)
    (evs : List (Txt × Txt)) (fs : List Txt) (h : Line t e as evs fs) :
    EaterOk t e → ∀ s : St F, Ready s e → Cnt t s.dyn evs →
      ∃ r, steps strtod t s as = .ok r ∧ Ends strtod t s r evs fs := by
  induction h with
  | done e =>
    intro _ s hs _
    refine ⟨s, rfl, ?_, ?_⟩
    · intro dyn' hd
      cases hd
      exact ⟨rfl, by simp, hs.err, hs.oneshot⟩
    · intro hd; cases hd
  | rest e fs =>
    intro _ s hs _
    have h1 := step_dash strtod t s e hs ['-'] (by rintro (h | h) <;> simp at h)
    have h2 : dashed strtod t { s with eater := none } ['-', '-'] ['-'] =
      { s with eater := none, endOfOptions := true } := rfl
    rw [steps, h1, h2]
    simp only
    rw [steps_eoo strtod t fs { s with eater := none, endOfOptions := true } hs.err rfl]
    refine ⟨_, rfl, ?_, ?_⟩
    · intro dyn' hd
      cases hd
      exact ⟨rfl, rfl, hs.err, hs.oneshot⟩
    · intro hd; cases hd
  | file a as fs evs hp _ ih =>
    intro he s hs hc
    have h1 : step strtod t s a = .ok { s with left := s.left ++ [a] } := by
      unfold step
      rw [if_neg (by simp [hs.err]), if_neg (by simp [hs.eoo]), hs.oneshot]
      have : (isPlain a && hungry s) = true := by
        simp [(isPlain_iff a).mpr hp, hungry, hs.eater]
      simp only [this, if_true, hs.eater]
    rw [steps, h1]
    simp only
    exact cont strtod t ht s { s with left := s.left ++ [a] } [] evs [a] fs as none
      ⟨fun dyn' hd => by
        cases hd
        exact ⟨rfl, rfl, hs.err, hs.eoo, hs.oneshot, hs.eater⟩, fun hd => by cases hd⟩
      hc (ih he)
  | more n o a as fs evs hp _ ih =>
    intro he s hs hc
    obtain ⟨hm, ha⟩ := he n o rfl
    have h1 : step strtod t s a = .ok (s.give strtod n o a s.eaterName) := by
      unfold step
      rw [if_neg (by simp [hs.err]), if_neg (by simp [hs.eoo]), hs.oneshot]
      have : (isPlain a && hungry s) = true := by
        have hcnt := hc n o hm ha
        rw [argsOf_cons, if_pos rfl] at hcnt
        simp only [List.length_cons] at hcnt
        simp only [(isPlain_iff a).mpr hp, hungry, hs.eater, Bool.true_and, decide_eq_true_eq]
        push_cast at hcnt
        omega
      simp only [this, if_true, hs.eater]
    rw [steps, h1]
    simp only
    exact cont strtod t ht s _ [(n, a)] evs [] fs as _ (give_after strtod t ht s _ hs n o a _ hm) hc
      (ih he)
  | flag e hd name n o no as fs evs0 evs hh hm hf _ ih =>
    intro _ s hs hc
    obtain ⟨s', h1, h2⟩ := step_head strtod t ht s e hs hd evs0 name [] hh (Or.inl rfl)
      (means_ne t ht _ _ _ _ hm _)
    have h3 := After.trans strtod (evs1 := [(n, flagText no)]) (fl1 := []) (e1 := none)
      (r := if s'.err.isSome then s' else single strtod t s' (hd ++ []) (name ++ []) name.length) h1
      (fun h => by rw [if_pos h])
      (fun h => by
        rw [if_neg (by simp [h.err]), single_found strtod t ht s' _ name [] n o no hm]
        exact use_flag strtod t ht s' none h _ n o no (means_mem t _ _ _ _ hm) hf)
    rw [List.append_nil] at h2
    rw [steps, h2]
    simp only
    have := cont strtod t ht s _ (evs0 ++ [(n, flagText no)]) evs [] fs as none h3
      (by simpa using hc) (ih (by intro n o h; cases h))
    simpa using this
  | eq e hd name n o no c v as fs evs0 evs hh hm hf hcc _ ih =>
    intro _ s hs hc
    obtain ⟨s', h1, h2⟩ := step_head strtod t ht s e hs hd evs0 name (c :: v) hh
      (by rcases hcc with rfl | rfl
          · exact Or.inr (Or.inl rfl)
          · exact Or.inr (Or.inr rfl))
      (means_ne t ht _ _ _ _ hm _)
    have h3 := After.trans strtod (evs1 := [(n, v)]) (fl1 := []) (e1 := eaterOf n o)
      (r := if s'.err.isSome then s'
        else single strtod t s' (hd ++ c :: v) (name ++ c :: v) name.length) h1
      (fun h => by rw [if_pos h])
      (fun h => by
        rw [if_neg (by simp [h.err]), single_found strtod t ht s' _ name _ n o no hm]
        exact use_value strtod t ht s' h _ n o no c v (means_mem t _ _ _ _ hm) hf)
    rw [steps, h2]
    simp only
    have := cont strtod t ht s _ (evs0 ++ [(n, v)]) evs [] fs as _ h3
      (by simpa using hc) (ih (eaterOf_ok t n o (means_mem t _ _ _ _ hm)))
    simpa using this
  | next e hd name n o no v as fs evs0 evs hh hm hf ha _ ih =>
    intro _ s hs hc
    have hmem := means_mem t _ _ _ _ hm
    obtain ⟨s', h1, h2⟩ := step_head strtod t ht s e hs hd evs0 name [] hh (Or.inl rfl)
      (means_ne t ht _ _ _ _ hm _)
    rw [single_found strtod t ht s' _ name [] n o no hm, use_next strtod s' _ n o no hf ha] at h2
    rw [List.append_nil] at h2
    rw [steps, h2]
    simp only
    rw [steps]
    -- the second argument
    have h3 : ∃ s2, step strtod t
        (if s'.err.isSome then s' else { s' with oneshot := some (n, o), eaterName := hd }) v = .ok s2 ∧
        After strtod t s s2 (evs0 ++ [(n, v)]) ([] ++ []) none := by
      by_cases herr : s'.err.isSome
      · refine ⟨s', ?_, ?_⟩
        · rw [if_pos herr]
          unfold step
          rw [if_pos herr]
        · exact After.trans strtod h1 (fun _ => rfl)
            (fun h => absurd herr (by simp [h.err]))
      · rw [if_neg herr]
        have herr' : s'.err = none := by simpa using herr
        obtain ⟨dyn1, hf1⟩ : ∃ dyn1, feedAll strtod t s.dyn evs0 = some dyn1 := by
          cases hf1 : feedAll strtod t s.dyn evs0 with
          | none => exact absurd (h1.bad hf1).1 herr
          | some d => exact ⟨d, rfl⟩
        have hr := (h1.good dyn1 hf1).2.2
        refine ⟨{ ({ s' with oneshot := some (n, o), eaterName := hd } : St F).give strtod n o v hd
          with oneshot := none }, ?_, ?_⟩
        · unfold step
          rw [if_neg (by simp [herr']), if_neg (by simp [hr.eoo])]
        · refine After.trans strtod h1 (fun h => absurd h herr) (fun h => ?_)
          exact After.mono strtod (give_after strtod t ht s' none h n o v hd hmem)
            rfl rfl rfl rfl (by
              have : (s'.give strtod n o v hd).oneshot = s'.oneshot := rfl
              rw [this, h.oneshot]) (by
              have : (s'.give strtod n o v hd).eater = s'.eater := rfl
              exact h.eater)
    obtain ⟨s2, h4, h5⟩ := h3
    rw [h4]
    simp only
    have := cont strtod t ht s _ (evs0 ++ [(n, v)]) evs [] fs as none h5
      (by simpa using hc) (ih (by intro n o h; cases h))
    simpa using this
  | many e hd name n o no as fs evs0 evs hh hm hf ha _ ih =>
    intro _ s hs hc
    obtain ⟨s', h1, h2⟩ := step_head strtod t ht s e hs hd evs0 name [] hh (Or.inl rfl)
      (means_ne t ht _ _ _ _ hm _)
    have h3 := After.trans strtod (evs1 := []) (fl1 := []) (e1 := some (n, o))
      (r := if s'.err.isSome then s' else single strtod t s' (hd ++ []) (name ++ []) name.length) h1
      (fun h => by rw [if_pos h])
      (fun h => by
        rw [if_neg (by simp [h.err]), single_found strtod t ht s' _ name [] n o no hm]
        exact use_many strtod t s' h _ n o no hf ha)
    rw [List.append_nil] at h2
    rw [steps, h2]
    simp only
    have := cont strtod t ht s _ (evs0 ++ []) evs [] fs as _ h3
      (by simpa using hc) (ih (by
        intro m p h
        cases h
        exact ⟨means_mem t _ _ _ _ hm, ha⟩))
    simpa using this
  | glued e hd name n o no c cs x as fs evs0 evs hh hx hnm hname hm hf _ ih =>
    intro _ s hs hc
    subst hname
    obtain ⟨s', h1, h2⟩ := step_head strtod t ht s e hs hd evs0 (c :: cs) x hh hx (by simp)
    have hsingle : single strtod t s' (hd ++ x) (c :: cs ++ x) (c :: cs).length =
        useOption strtod s' (hd ++ x) (c :: (cs ++ x)) n o no := by
      unfold single
      rw [List.take_left, (find_none t ht _).mpr hnm]
      simp only [List.cons_append, List.headD_cons]
      rw [(find_iff t ht _ _ _ _).mpr hm]
      simp only [takes_of o hf, if_true]
    have h3 := After.trans strtod (evs1 := [(n, cs ++ x)]) (fl1 := []) (e1 := eaterOf n o)
      (r := if s'.err.isSome then s'
        else single strtod t s' (hd ++ x) (c :: cs ++ x) (c :: cs).length) h1
      (fun h => by rw [if_pos h])
      (fun h => by
        rw [if_neg (by simp [h.err]), hsingle]
        exact use_value strtod t ht s' h _ n o no c (cs ++ x) (means_mem t _ _ _ _ hm) hf)
    rw [steps, h2]
    simp only
    have := cont strtod t ht s _ (evs0 ++ [(n, cs ++ x)]) evs [] fs as _ h3
      (by simpa using hc) (ih (eaterOf_ok t n o (means_mem t _ _ _ _ hm)))
    simpa using this
  | unknown e hd name x as fs evs0 evs hu hh hx hne hnm hfl _ ih =>
    intro _ s hs hc
    obtain ⟨s', h1, h2⟩ := step_head strtod t ht s e hs hd evs0 name x hh hx hne
    have hsingle : single strtod t s' (hd ++ x) (name ++ x) name.length =
        { s' with left := s'.left ++ [hd ++ x] } := by
      unfold single
      rw [List.take_left, (find_none t ht _).mpr hnm]
      simp only
      cases hfo : t.findOption [(name ++ x).headD '\x00'] with
      | none => simp only [hu, if_true]
      | some y =>
        obtain ⟨n, o, no⟩ := y
        have hm := (find_iff t ht _ _ _ _).mp hfo
        have hflag := no_glue t ht name x hx hne hfl n o no hm
        simp only [(takesArg_iff _).mpr hflag, Bool.false_eq_true, if_false, hu, if_true]
    have h3 := After.trans strtod (evs1 := []) (fl1 := [hd ++ x]) (e1 := none)
      (r := if s'.err.isSome then s'
        else single strtod t s' (hd ++ x) (name ++ x) name.length) h1
      (fun h => by rw [if_pos h])
      (fun h => by
        rw [if_neg (by simp [h.err]), hsingle]
        exact ⟨fun dyn' hd => by
          cases hd
          exact ⟨rfl, rfl, h.err, h.eoo, h.oneshot, h.eater⟩, fun hd => by cases hd⟩)
    rw [steps, h2]
    simp only
    have := cont strtod t ht s _ (evs0 ++ []) evs ([] ++ [hd ++ x]) fs as none h3
      (by simpa using hc) (ih (by intro n o h; cases h))
    simpa using this

/-- Each option gets what was meant for it. -/
theorem feedAll_each (t : Table) (ht : Good t) (evs : List (Txt × Txt))
    (hev : ∀ ev ∈ evs, ∃ o, (ev.1, o) ∈ t.options) : ∀ dyn : Txt → Dyn F,
    (∀ dyn', feedAll strtod t dyn evs = some dyn' → ∀ n o, (n, o) ∈ t.options →
      feed strtod o (dyn n) (argsOf n evs) = some (dyn' n)) ∧
    (feedAll strtod t dyn evs = none → ∃ n o, (n, o) ∈ t.options ∧
      feed strtod o (dyn n) (argsOf n evs) = none) := by
  induction evs with
  | nil =>
    intro dyn
    constructor
    · intro dyn' h n o _
      cases h
      rfl
    · intro h; cases h
  | cons ev evs ih =>
    intro dyn
    obtain ⟨m, a⟩ := ev
    obtain ⟨p, hp⟩ := hev (m, a) (by simp)
    rw [feedAll_cons strtod t ht dyn m a p evs hp]
    have ih' := ih fun ev h => hev ev (by simp [h])
    cases hd : toOpt (handleSplit strtod p (dyn m) a) with
    | none =>
      constructor
      · intro dyn' h; cases h
      · intro _
        refine ⟨m, p, hp, ?_⟩
        rw [argsOf_cons, if_pos rfl, feed_cons, hd]
        rfl
    | some d =>
      rw [Option.bind_some]
      have one : ∀ n o, (n, o) ∈ t.options → feed strtod o (dyn n) (argsOf n ((m, a) :: evs)) =
          feed strtod o (Function.update dyn m d n) (argsOf n evs) := by
        intro n o hn
        rw [argsOf_cons]
        by_cases hmn : m = n
        · subst hmn
          have : p = o := by
            have h1 := (lookup_iff _ ht.opts m p).mpr hp
            rw [(lookup_iff _ ht.opts m o).mpr hn] at h1
            exact (Option.some.inj h1).symm
          subst this
          rw [if_pos rfl, feed_cons, hd, Option.bind_some, Function.update_self]
        · rw [if_neg hmn, Function.update_of_ne (Ne.symm hmn)]
      constructor
      · intro dyn' h n o hn
        rw [one n o hn]
        exact (ih' _).1 dyn' h n o hn
      · intro h
        obtain ⟨n, o, hn, e⟩ := (ih' _).2 h
        exact ⟨n, o, hn, by rw [one n o hn]; exact e⟩

theorem flags_mem (t : Table) (cs : List Char) (evs : List (Txt × Txt)) (h : Flags t cs evs) :
    ∀ ev ∈ evs, ∃ o, (ev.1, o) ∈ t.options := by
  induction h with
  | nil => intro ev h; simp at h
  | cons c cs n o no evs hm _ _ ih =>
    intro ev h
    rcases List.mem_cons.mp h with rfl | h
    · exact ⟨o, means_mem t _ _ _ _ hm⟩
    · exact ih ev h

theorem head_mem (t : Table) (hd : Txt) (evs : List (Txt × Txt)) (name : Txt)
    (h : Head t hd evs name) : ∀ ev ∈ evs, ∃ o, (ev.1, o) ∈ t.options := by
  cases h with
  | long => intro ev h; simp at h
  | short => intro ev h; simp at h
  | combined cs c _ _ _ _ _ hf => exact flags_mem t cs evs hf

theorem line_mem (t : Table) (e : Option (Txt × Opt)) (as : List Txt)
    (evs : List (Txt × Txt)) (fs : List Txt) (h : Line t e as evs fs) : EaterOk t e →
    ∀ ev ∈ evs, ∃ o, (ev.1, o) ∈ t.options := by
  have nn : EaterOk t none := by intro n o h; cases h
  induction h with
  | done => intro _ ev h; simp at h
  | rest => intro _ ev h; simp at h
  | file _ _ _ _ _ _ ih => exact ih
  | more n o a as fs evs _ _ ih =>
    intro he ev h
    rcases List.mem_cons.mp h with rfl | h
    · exact ⟨o, (he n o rfl).1⟩
    · exact ih he ev h
  | flag e hd name n o no as fs evs0 evs hh hm hf _ ih =>
    intro _ ev h
    rcases List.mem_append.mp h with h | h
    · exact head_mem t _ _ _ hh ev h
    · rcases List.mem_cons.mp h with rfl | h
      · exact ⟨o, means_mem t _ _ _ _ hm⟩
      · exact ih nn ev h
  | eq e hd name n o no c v as fs evs0 evs hh hm hf hcc _ ih =>
    intro _ ev h
    rcases List.mem_append.mp h with h | h
    · exact head_mem t _ _ _ hh ev h
    · rcases List.mem_cons.mp h with rfl | h
      · exact ⟨o, means_mem t _ _ _ _ hm⟩
      · exact ih (eaterOf_ok t n o (means_mem t _ _ _ _ hm)) ev h
  | next e hd name n o no v as fs evs0 evs hh hm hf ha _ ih =>
    intro _ ev h
    rcases List.mem_append.mp h with h | h
    · exact head_mem t _ _ _ hh ev h
    · rcases List.mem_cons.mp h with rfl | h
      · exact ⟨o, means_mem t _ _ _ _ hm⟩
      · exact ih nn ev h
  | many e hd name n o no as fs evs0 evs hh hm hf ha _ ih =>
    intro _ ev h
    rcases List.mem_append.mp h with h | h
    · exact head_mem t _ _ _ hh ev h
    · refine ih ?_ ev h
      intro m p h
      cases h
      exact ⟨means_mem t _ _ _ _ hm, ha⟩
  | glued e hd name n o no c cs x as fs evs0 evs hh hx hnm hname hm hf _ ih =>
    intro _ ev h
    rcases List.mem_append.mp h with h | h
    · exact head_mem t _ _ _ hh ev h
    · rcases List.mem_cons.mp h with rfl | h
      · exact ⟨o, means_mem t _ _ _ _ hm⟩
      · exact ih (eaterOf_ok t n o (means_mem t _ _ _ _ hm)) ev h
  | unknown e hd name x as fs evs0 evs hu hh hx hne hnm hfl _ ih =>
    intro _ ev h
    rcases List.mem_append.mp h with h | h
    · exact head_mem t _ _ _ hh ev h
    · exact ih nn ev h

end Verif.Util.Args
