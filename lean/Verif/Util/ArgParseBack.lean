import Verif.Util.ArgParseLine

/-
Lemmas: what is parsed without an error is a command line of the documented form,
as long as no option is limited to a number of arguments.
-/
namespace Verif.Util.Args
open Spec

variable {F : Type} (strtod : Txt → Option F)

/-- No option is limited to a number of arguments. -/
def Free (t : Table) (dyn : Txt → Dyn F) : Prop :=
  ∀ n o, (n, o) ∈ t.options → o.sep = .argv → (dyn n).count = -1

theorem give_back (t : Table) (ht : Good t) (s : St F) (e : Option (Txt × Opt)) (hr : Ready s e)
    (hfree : Free t s.dyn) (n : Txt) (o : Opt) (a pre : Txt) (hm : (n, o) ∈ t.options)
    (he : (s.give strtod n o a pre).err = none) :
    Ready (s.give strtod n o a pre) e ∧ Free t (s.give strtod n o a pre).dyn := by
  refine ⟨⟨he, hr.eoo, hr.oneshot, hr.eater⟩, ?_⟩
  intro m p hp hs
  have hd : (s.give strtod n o a pre).dyn =
    Function.update s.dyn n (handleSplit strtod o (s.dyn n) a).1 := rfl
  rw [hd]
  by_cases hmn : m = n
  · subst hmn
    have : p = o := by
      have h1 := (lookup_iff _ ht.opts m p).mpr hp
      rw [(lookup_iff _ ht.opts m o).mpr hm] at h1
      exact (Option.some.inj h1).symm
    subst this
    rw [Function.update_self]
    have ho : toOpt (handleSplit strtod p (s.dyn m) a) =
        some (handleSplit strtod p (s.dyn m) a).1 := by
      have : (handleSplit strtod p (s.dyn m) a).2 = none := by
        have he' : ((handleSplit strtod p (s.dyn m) a).2.map (Err.handler pre)) = none := he
        simpa using he'
      simp [toOpt, this]
    rw [count_argv strtod t ht m p hp hs _ _ _ ho, hfree m p hp hs]
    rfl
  · rw [Function.update_of_ne hmn]
    exact hfree m p hp hs

theorem bundle_back (t : Table) (ht : Good t) (arg : Txt) (e : Option (Txt × Opt))
    (cs : List Char) : ∀ s : St F, Ready s e → Free t s.dyn →
    (bundle strtod t arg cs s).err = none →
    (∃ evs, Flags t cs evs) ∧ Ready (bundle strtod t arg cs s) e ∧
      Free t (bundle strtod t arg cs s).dyn := by
  induction cs with
  | nil =>
    intro s hs hf _
    exact ⟨⟨[], .nil⟩, hs, hf⟩
  | cons c cs ih =>
    intro s hs hf he
    rw [bundle] at he ⊢
    cases hfo : t.findOption [c] with
    | none =>
      rw [hfo] at he
      simp at he
    | some y =>
      obtain ⟨n, o, no⟩ := y
      rw [hfo] at he
      simp only at he ⊢
      have hm := (find_iff t ht _ _ _ _).mp hfo
      by_cases htk : o.kind.takesArg = true
      · rw [if_pos htk] at he
        simp at he
      · rw [if_neg htk] at he ⊢
        have hfl : IsFlag o.kind := (takesArg_iff _).mp (by simpa using htk)
        by_cases hg : (s.give strtod n o (if no then ['n', 'o'] else []) arg).err.isSome
        · rw [if_pos hg] at he
          rw [he] at hg
          simp at hg
        · rw [if_neg hg] at he ⊢
          obtain ⟨h1, h2⟩ := give_back strtod t ht s e hs hf n o _ arg (means_mem t _ _ _ _ hm)
            (by simpa using hg)
          obtain ⟨⟨evs, h3⟩, h4⟩ := ih _ h1 h2 he
          exact ⟨⟨_, .cons c cs n o no evs hm hfl h3⟩, h4⟩

theorem split_name (rest : Txt) :
    ∃ name x, rest = name ++ x ∧ NoSep name ∧ Tail x := by
  refine ⟨rest.takeWhile fun c => c != ':' && c != '=', rest.dropWhile fun c => c != ':' && c != '=',
    by simp, ?_, ?_⟩
  · constructor
    · intro h
      have := List.mem_takeWhile_imp h
      simp at this
    · intro h
      have := List.mem_takeWhile_imp h
      simp at this
  · cases h : rest.dropWhile fun c => c != ':' && c != '=' with
    | nil => exact Or.inl rfl
    | cons c x =>
      have h1 : (rest.dropWhile fun c => c != ':' && c != '=') ≠ [] := by simp [h]
      have := List.head_dropWhile_not (fun c => c != ':' && c != '=') h1
      simp only [h, List.head_cons] at this
      right
      by_cases hc : c = ':'
      · left; simp [hc]
      · right
        simp only [Bool.and_eq_false_iff] at this
        rcases this with h | h
        · simp at h; exact absurd h hc
        · simp at h; simp [h]

theorem dashed_back (t : Table) (ht : Good t) (s : St F) (hs : Ready s none) (hf : Free t s.dyn)
    (arg rest : Txt) (harg : arg = '-' :: rest) (h1 : rest ≠ []) (h2 : rest ≠ ['-'])
    (he : (dashed strtod t s arg rest).err = none) :
    ∃ hd evs0 name x s', Head t hd evs0 name ∧ Tail x ∧ arg = hd ++ x ∧ name ++ x ≠ [] ∧
      Ready s' none ∧ Free t s'.dyn ∧
      dashed strtod t s arg rest = single strtod t s' arg (name ++ x) name.length := by
  by_cases hlong : rest.head? = some '-'
  · obtain ⟨r, rfl⟩ : ∃ r, rest = '-' :: r := by
      cases rest with
      | nil => simp at hlong
      | cons c r => simp only [List.head?_cons, Option.some.injEq] at hlong; exact ⟨r, by rw [hlong]⟩
    have hr : r ≠ [] := fun h => h2 (by rw [h])
    obtain ⟨name, x, rfl, hn, hx⟩ := split_name r
    refine ⟨_, _, name, x, s, .long name hn, hx, by simp [harg], hr, hs, hf, ?_⟩
    rw [dashed_long strtod t s arg _ hr]
    unfold named
    simp only
    rw [nameLen_eq name x hn hx, if_neg (by simp)]
  · rw [dashed_short strtod t s arg _ hlong] at he ⊢
    obtain ⟨name, x, rfl, hn, hx⟩ := split_name rest
    unfold named at he ⊢
    simp only at he ⊢
    rw [nameLen_eq name x hn hx] at he ⊢
    have hnd : name.head? ≠ some '-' := by
      cases name with
      | nil => simp
      | cons c name => simpa using hlong
    by_cases hc : t.combined = true ∧ name.length > 1
    · rw [if_pos ⟨hc.1, trivial, hc.2⟩] at he ⊢
      -- the last character of the name
      obtain ⟨cs, c, rfl⟩ : ∃ cs c, name = cs ++ [c] := by
        rcases List.eq_nil_or_concat name with h | ⟨cs, c, h⟩
        · rw [h] at hc; simp at hc
        · exact ⟨cs, c, by simpa using h⟩
      have e1 : (cs ++ [c] ++ x).take ((cs ++ [c]).length - 1) = cs := by simp
      have e2 : (cs ++ [c] ++ x).drop ((cs ++ [c]).length - 1) = [c] ++ x := by simp
      have hcs : cs ≠ [] := by
        intro h; rw [h] at hc; simp at hc
      rw [e1, e2] at he ⊢
      by_cases hb : (bundle strtod t arg cs s).err.isSome
      · rw [if_pos hb] at he
        rw [he] at hb
        simp at hb
      · rw [if_neg hb] at he ⊢
        obtain ⟨⟨evs, h3⟩, h4, h5⟩ := bundle_back strtod t ht arg none cs s hs hf (by simpa using hb)
        refine ⟨_, _, [c], x, _, .combined cs c evs hc.1 hcs hn ?_ h3, hx, by simp [harg], by simp,
          h4, h5, rfl⟩
        cases cs with
        | nil => exact absurd rfl hcs
        | cons d cs => simpa using hnd
    · have hc' : ¬ (t.combined = true ∧ True ∧ name.length > 1) := by
        rintro ⟨a, _, b⟩; exact hc ⟨a, b⟩
      rw [if_neg hc'] at he ⊢
      refine ⟨_, _, name, x, s, .short name hn ?_ hnd, hx, by simp [harg], h1, hs, hf, rfl⟩
      intro h
      by_contra hh
      exact hc ⟨h, by omega⟩

/-- What was parsed without an error is a command line of the documented form. -/
theorem line_back (t : Table) (ht : Good t) : ∀ (m : Nat) (as : List Txt), as.length ≤ m →
    ∀ (e : Option (Txt × Opt)) (s r : St F), EaterOk t e → Ready s e → Free t s.dyn →
      steps strtod t s as = .ok r → r.err = none → r.oneshot = none →
      ∃ evs fs, Line t e as evs fs := by
  intro m
  induction m with
  | zero =>
    intro as hl e s r _ _ _ _ _ _
    have : as = [] := by simpa using hl
    subst this
    exact ⟨[], [], .done e⟩
  | succ m ih =>
    intro as hl e s r heo hs hf hst her hor
    cases as with
    | nil => exact ⟨[], [], .done e⟩
    | cons a as =>
      have hl' : as.length ≤ m := by simp at hl; omega
      have nn : EaterOk t none := by intro n o h; cases h
      rw [steps] at hst
      have noerr : ∀ s1 : St F, steps strtod t s1 as = .ok r → s1.err = none := by
        intro s1 h
        by_contra hh
        have hh' : s1.err.isSome := by
          cases h1 : s1.err with
          | none => exact absurd h1 hh
          | some _ => rfl
        rw [steps_err strtod t s1 hh'] at h
        cases h
        exact hh her
      by_cases hp : Plain a
      · cases e with
        | none =>
          have h1 : step strtod t s a = .ok { s with left := s.left ++ [a] } := by
            unfold step
            rw [if_neg (by simp [hs.err]), if_neg (by simp [hs.eoo]), hs.oneshot]
            have : (isPlain a && hungry s) = true := by
              simp [(isPlain_iff a).mpr hp, hungry, hs.eater]
            simp only [this, if_true, hs.eater]
          rw [h1] at hst
          obtain ⟨evs, fs, h⟩ := ih as hl' none { s with left := s.left ++ [a] } r nn
            ⟨hs.err, hs.eoo, hs.oneshot, hs.eater⟩ hf hst her hor
          exact ⟨_, _, .file a as fs evs hp h⟩
        | some p =>
          obtain ⟨n, o⟩ := p
          obtain ⟨hm, ha⟩ := heo n o rfl
          have h1 : step strtod t s a = .ok (s.give strtod n o a s.eaterName) := by
            unfold step
            rw [if_neg (by simp [hs.err]), if_neg (by simp [hs.eoo]), hs.oneshot]
            have : (isPlain a && hungry s) = true := by
              simp [(isPlain_iff a).mpr hp, hungry, hs.eater, hf n o hm ha]
            simp only [this, if_true, hs.eater]
          rw [h1] at hst
          have h2 := noerr _ hst
          obtain ⟨h3, h4⟩ := give_back strtod t ht s _ hs hf n o a _ hm h2
          obtain ⟨evs, fs, h⟩ := ih as hl' _ _ r heo h3 h4 hst her hor
          exact ⟨_, _, .more n o a as fs evs hp h⟩
      · obtain ⟨rest, rfl⟩ : ∃ rest, a = '-' :: rest := by
          cases a with
          | nil => exact absurd (Or.inr (by simp)) hp
          | cons c rest =>
            refine ⟨rest, ?_⟩
            by_contra hc
            exact hp (Or.inr (by simpa using fun h => hc (by rw [h])))
        have h1 : rest ≠ [] := by
          rintro rfl
          exact hp (Or.inl rfl)
        rw [step_dash strtod t s e hs rest hp] at hst
        simp only at hst
        by_cases h2 : rest = ['-']
        · subst h2
          exact ⟨_, _, .rest e as⟩
        · have h3 := noerr _ hst
          obtain ⟨hd, evs0, name, x, s', hh, hx, harg, hne, hs', hf', hsg⟩ :=
            dashed_back strtod t ht { s with eater := none } ⟨hs.err, hs.eoo, hs.oneshot, rfl⟩ hf
              ('-' :: rest) rest rfl h1 h2 h3
          rw [hsg] at hst h3
          rw [harg] at hst h3 ⊢
          clear hsg harg
          by_cases hmeans : ∃ n o no, Means t name n o no
          · obtain ⟨n, o, no, hm⟩ := hmeans
            have hmem := means_mem t _ _ _ _ hm
            rw [single_found strtod t ht s' _ name x n o no hm] at hst h3
            by_cases hfl : IsFlag o.kind
            · have hk : ¬ (o.kind.takesArg = true) := by simp [(takesArg_iff _).mpr hfl]
              cases x with
              | nil =>
                unfold useOption at hst h3
                rw [if_neg hk] at hst h3
                simp only at hst h3
                obtain ⟨h4, h5⟩ := give_back strtod t ht s' _ hs' hf' n o _ _ hmem h3
                obtain ⟨evs, fs, h⟩ := ih as hl' none _ r nn h4 h5 hst her hor
                rw [List.append_nil]
                exact ⟨_, _, .flag e hd name n o no as fs evs0 evs hh hm hfl h⟩
              | cons c v =>
                unfold useOption at h3
                rw [if_neg hk] at h3
                simp at h3
            · cases x with
              | cons c v =>
                have hcc : c = ':' ∨ c = '=' := by
                  rcases hx with h | h | h
                  · simp at h
                  · left; simpa using h
                  · right; simpa using h
                have hg : (useOption strtod s' (hd ++ c :: v) (c :: v) n o no).err =
                    (s'.give strtod n o v (hd ++ c :: v)).err := by
                  unfold useOption
                  rw [if_pos (takes_of o hfl)]
                  simp only
                  by_cases ha : o.sep = Sep.argv
                  · rw [if_pos ha]
                  · rw [if_neg ha]
                have hD : (useOption strtod s' (hd ++ c :: v) (c :: v) n o no).dyn =
                    (s'.give strtod n o v (hd ++ c :: v)).dyn := by
                  unfold useOption
                  rw [if_pos (takes_of o hfl)]
                  simp only
                  by_cases ha : o.sep = Sep.argv
                  · rw [if_pos ha]
                  · rw [if_neg ha]
                obtain ⟨h4, h5⟩ := give_back strtod t ht s' _ hs' hf' n o v _ hmem (hg ▸ h3)
                have hr : Ready (useOption strtod s' (hd ++ c :: v) (c :: v) n o no)
                    (eaterOf n o) := by
                  unfold useOption at h3 ⊢
                  rw [if_pos (takes_of o hfl)] at h3 ⊢
                  simp only at h3 ⊢
                  by_cases ha : o.sep = Sep.argv
                  · rw [if_pos ha] at h3 ⊢
                    exact ⟨h3, h4.eoo, h4.oneshot, by simp [eaterOf, ha]⟩
                  · rw [if_neg ha] at h3 ⊢
                    exact ⟨h3, h4.eoo, h4.oneshot, by simp only [eaterOf, ha, if_false]; exact h4.eater⟩
                obtain ⟨evs, fs, h⟩ := ih as hl' _ _ r (eaterOf_ok t n o hmem) hr
                  (by rw [hD]; exact h5) hst her hor
                exact ⟨_, _, .eq e hd name n o no c v as fs evs0 evs hh hm hfl hcc h⟩
              | nil =>
                rw [List.append_nil] at hst h3 ⊢
                by_cases ha : o.sep = Sep.argv
                · have hu : useOption strtod s' hd [] n o no =
                      { s' with eater := some (n, o), eaterName := hd } := by
                    unfold useOption
                    rw [if_pos (takes_of o hfl)]
                    simp only [ha, ne_eq, not_true_eq_false, if_false, if_true]
                  rw [hu] at hst
                  obtain ⟨evs, fs, h⟩ := ih as hl' (some (n, o))
                    { s' with eater := some (n, o), eaterName := hd } r
                    (by intro m p h; cases h; exact ⟨hmem, ha⟩)
                    ⟨hs'.err, hs'.eoo, hs'.oneshot, rfl⟩ hf' hst her hor
                  exact ⟨_, _, .many e hd name n o no as fs evs0 evs hh hm hfl ha h⟩
                · rw [use_next strtod s' hd n o no hfl ha] at hst
                  cases as with
                  | nil =>
                    rw [steps] at hst
                    cases hst
                    simp at hor
                  | cons v as =>
                    rw [steps] at hst
                    have h4 : step strtod t { s' with oneshot := some (n, o), eaterName := hd } v =
                        .ok { s'.give strtod n o v hd with oneshot := none, eaterName := hd } := by
                      unfold step
                      rw [if_neg (by simp [hs'.err]), if_neg (by simp [hs'.eoo])]
                      rfl
                    rw [h4] at hst
                    simp only at hst
                    have h5 : (s'.give strtod n o v hd).err = none := by
                      by_contra hh
                      have hh' : ({ s'.give strtod n o v hd with oneshot := none, eaterName := hd } :
                          St F).err.isSome := by
                        cases h1 : (s'.give strtod n o v hd).err with
                        | none => exact absurd h1 hh
                        | some _ => simp
                      rw [steps_err strtod t _ hh'] at hst
                      cases hst
                      exact hh her
                    obtain ⟨h6, h7⟩ := give_back strtod t ht s' _ hs' hf' n o v hd hmem h5
                    obtain ⟨evs, fs, h⟩ := ih as (by simp at hl'; omega) none
                      { s'.give strtod n o v hd with oneshot := none, eaterName := hd } r nn
                      ⟨h6.err, h6.eoo, rfl, h6.eater⟩ h7 hst her hor
                    exact ⟨_, _, .next e hd name n o no v as fs evs0 evs hh hm hfl ha h⟩
          · have hnm : ∀ n o no, ¬ Means t name n o no := fun n o no h => hmeans ⟨n, o, no, h⟩
            by_cases hgl : ∃ c cs n o no, name = c :: cs ∧ Means t [c] n o no ∧ ¬ IsFlag o.kind
            · obtain ⟨c, cs, n, o, no, rfl, hm, hfl⟩ := hgl
              have hmem := means_mem t _ _ _ _ hm
              have hsingle : single strtod t s' (hd ++ x) (c :: cs ++ x) (c :: cs).length =
                  useOption strtod s' (hd ++ x) (c :: (cs ++ x)) n o no := by
                unfold single
                rw [List.take_left, (find_none t ht _).mpr hnm]
                simp only [List.cons_append, List.headD_cons]
                rw [(find_iff t ht _ _ _ _).mpr hm]
                simp only [takes_of o hfl, if_true]
              rw [hsingle] at hst h3
              have hg : (useOption strtod s' (hd ++ x) (c :: (cs ++ x)) n o no).err =
                  (s'.give strtod n o (cs ++ x) (hd ++ x)).err := by
                unfold useOption
                rw [if_pos (takes_of o hfl)]
                simp only
                by_cases ha : o.sep = Sep.argv
                · rw [if_pos ha]
                · rw [if_neg ha]
              have hD : (useOption strtod s' (hd ++ x) (c :: (cs ++ x)) n o no).dyn =
                  (s'.give strtod n o (cs ++ x) (hd ++ x)).dyn := by
                unfold useOption
                rw [if_pos (takes_of o hfl)]
                simp only
                by_cases ha : o.sep = Sep.argv
                · rw [if_pos ha]
                · rw [if_neg ha]
              obtain ⟨h4, h5⟩ := give_back strtod t ht s' _ hs' hf' n o (cs ++ x) _ hmem (hg ▸ h3)
              have hr : Ready (useOption strtod s' (hd ++ x) (c :: (cs ++ x)) n o no)
                  (eaterOf n o) := by
                unfold useOption at h3 ⊢
                rw [if_pos (takes_of o hfl)] at h3 ⊢
                simp only at h3 ⊢
                by_cases ha : o.sep = Sep.argv
                · rw [if_pos ha] at h3 ⊢
                  exact ⟨h3, h4.eoo, h4.oneshot, by simp [eaterOf, ha]⟩
                · rw [if_neg ha] at h3 ⊢
                  exact ⟨h3, h4.eoo, h4.oneshot, by simp only [eaterOf, ha, if_false]; exact h4.eater⟩
              obtain ⟨evs, fs, h⟩ := ih as hl' _ _ r (eaterOf_ok t n o hmem) hr
                (by rw [hD]; exact h5) hst her hor
              exact ⟨_, _, .glued e hd (c :: cs) n o no c cs x as fs evs0 evs hh hx hnm rfl hm hfl h⟩
            · have hfl : ∀ c cs n o no, name = c :: cs → Means t [c] n o no → IsFlag o.kind := by
                intro c cs n o no h1 h2
                by_contra hc
                exact hgl ⟨c, cs, n, o, no, h1, h2, hc⟩
              -- no option takes it
              have hsingle : single strtod t s' (hd ++ x) (name ++ x) name.length =
                  if t.allowUnrecognized then { s' with left := s'.left ++ [hd ++ x] }
                  else { s' with err := some (.unrecognized (hd ++ x)) } := by
                unfold single
                rw [List.take_left, (find_none t ht _).mpr hnm]
                simp only
                cases hfo : t.findOption [(name ++ x).headD '\x00'] with
                | none => rfl
                | some y =>
                  obtain ⟨n, o, no⟩ := y
                  have hm := (find_iff t ht _ _ _ _).mp hfo
                  have hflag := no_glue t ht name x hx hne hfl n o no hm
                  simp only [(takesArg_iff _).mpr hflag, Bool.false_eq_true, if_false]
              rw [hsingle] at hst h3
              by_cases hu : t.allowUnrecognized = true
              · rw [if_pos hu] at hst
                obtain ⟨evs, fs, h⟩ := ih as hl' none { s' with left := s'.left ++ [hd ++ x] } r nn
                  ⟨hs'.err, hs'.eoo, hs'.oneshot, hs'.eater⟩ hf' hst her hor
                exact ⟨_, _, .unknown e hd name x as fs evs0 evs hu hh hx hne hnm hfl h⟩
              · rw [if_neg hu] at h3
                simp at h3

end Verif.Util.Args
