import Verif.Util.ArgParseInt

/-
Lemmas: what an option holds after the arguments it was given.
-/
namespace Verif.Util.Args
open Spec

variable {F : Type} (strtod : Txt → Option F)

/-- The option, unless there is a message. -/
def toOpt (r : Dyn F × Option HErr) : Option (Dyn F) :=
  match r.2 with
  | none => some r.1
  | some _ => none

/-- The arguments of an option one after the other. -/
def feed (o : Opt) : Dyn F → List Txt → Option (Dyn F)
  | d, [] => some d
  | d, a :: as => (toOpt (handleSplit strtod o d a)).bind fun d' => feed o d' as

/-- The values of an option one after the other. -/
def feedP (k : Kind) : Dyn F → List Txt → Option (Dyn F)
  | d, [] => some d
  | d, a :: as => (toOpt (handleArg strtod k d a)).bind fun d' => feedP k d' as

theorem feed_cons (o : Opt) (d : Dyn F) (a : Txt) (as : List Txt) :
    feed strtod o d (a :: as) =
      (toOpt (handleSplit strtod o d a)).bind fun d' => feed strtod o d' as := rfl

theorem feedP_cons (k : Kind) (d : Dyn F) (a : Txt) (as : List Txt) :
    feedP strtod k d (a :: as) =
      (toOpt (handleArg strtod k d a)).bind fun d' => feedP strtod k d' as := rfl

theorem feedP_append (k : Kind) (as bs : List Txt) : ∀ d : Dyn F,
    feedP strtod k d (as ++ bs) = (feedP strtod k d as).bind fun d' => feedP strtod k d' bs := by
  induction as with
  | nil => intro d; rfl
  | cons a as ih =>
    intro d
    rw [List.cons_append, feedP_cons, feedP_cons, Option.bind_assoc]
    congr 1
    funext d'
    exact ih d'

theorem takeWhile_ne (c : Char) (p t : Txt) (h : c ∉ p) :
    (p ++ c :: t).takeWhile (· != c) = p ∧ (p ++ c :: t).dropWhile (· != c) = c :: t := by
  induction p with
  | nil => simp
  | cons x p ih =>
    have hx : (x != c) = true := by
      have : x ≠ c := fun e => h (by simp [e])
      simpa using this
    have := ih fun hc => h (by simp [hc])
    simp [hx, this]

theorem takeWhile_all (c : Char) (p : Txt) (h : c ∉ p) :
    p.takeWhile (· != c) = p ∧ p.dropWhile (· != c) = [] := by
  induction p with
  | nil => simp
  | cons x p ih =>
    have hx : (x != c) = true := by
      have : x ≠ c := fun e => h (by simp [e])
      simpa using this
    have := ih fun hc => h (by simp [hc])
    simp [hx, this]

theorem splitLoop_pieces (k : Kind) (c : Char) (a : Txt) (ps : List Txt) (h : Pieces c a ps) :
    ∀ (fuel : Nat) (d : Dyn F), a.length < fuel →
      toOpt (splitLoop strtod k c fuel d a) = feedP strtod k d ps := by
  have turn : ∀ (fuel : Nat) (d : Dyn F) (a : Txt), a ≠ [] →
      toOpt (splitLoop strtod k c (fuel + 1) d a) =
        (toOpt (handleArg strtod k d (a.takeWhile (· != c)))).bind fun d' =>
          toOpt (splitLoop strtod k c fuel d' ((a.dropWhile (· != c)).drop 1)) := by
    intro fuel d a ha
    rw [splitLoop, if_neg ha]
    simp only
    generalize handleArg strtod k d (a.takeWhile (· != c)) = r
    obtain ⟨d', e⟩ := r
    cases e <;> rfl
  induction h with
  | none =>
    intro fuel d hf
    cases fuel with
    | zero => simp at hf
    | succ fuel => rfl
  | last p hp hc =>
    intro fuel d hf
    obtain ⟨e1, e2⟩ := takeWhile_all c p hc
    cases fuel with
    | zero => simp at hf
    | succ fuel =>
      rw [turn fuel d p hp, e1, e2, feedP_cons]
      congr 1
      funext d'
      cases fuel with
      | zero =>
        cases p with
        | nil => exact absurd rfl hp
        | cons x p => simp at hf
      | succ fuel => rfl
  | cons p t ps hc _ ih =>
    intro fuel d hf
    obtain ⟨e1, e2⟩ := takeWhile_ne c p t hc
    cases fuel with
    | zero => simp at hf
    | succ fuel =>
      rw [turn fuel d _ (by simp), e1, e2, feedP_cons]
      congr 1
      funext d'
      exact ih fuel d' (by simp at hf; omega)

theorem split_values (o : Opt) (d : Dyn F) (a : Txt) (ps : List Txt) (h : Values o.sep a ps) :
    toOpt (handleSplit strtod o d a) = feedP strtod o.kind d ps := by
  obtain ⟨k, s⟩ := o
  simp only at h
  cases h with
  | none => simp only [handleSplit, feedP]; cases toOpt (handleArg strtod k d a) <;> rfl
  | argv => simp only [handleSplit, feedP]; cases toOpt (handleArg strtod k d a) <;> rfl
  | chr c a ps hp => exact splitLoop_pieces strtod k c a ps hp _ d (by omega)

theorem pieces_exist (c : Char) : ∀ (m : Nat) (a : Txt), a.length ≤ m → ∃ ps, Pieces c a ps := by
  intro m
  induction m with
  | zero =>
    intro a h
    have : a = [] := by simpa using h
    subst this
    exact ⟨[], .none⟩
  | succ m ih =>
    intro a h
    by_cases hc : c ∈ a
    · obtain ⟨p, t, rfl, hp⟩ := List.eq_append_cons_of_mem hc
      obtain ⟨ps, hps⟩ := ih t (by simp at h; omega)
      exact ⟨_, .cons p t ps hp hps⟩
    · by_cases ha : a = []
      · subst ha; exact ⟨[], .none⟩
      · exact ⟨_, .last a ha hc⟩

theorem values_exist (s : Sep) (a : Txt) : ∃ ps, Values s a ps := by
  cases s with
  | none => exact ⟨_, .none a⟩
  | argv => exact ⟨_, .argv a⟩
  | chr c =>
    obtain ⟨ps, h⟩ := pieces_exist c _ a le_rfl
    exact ⟨ps, .chr c a ps h⟩

theorem values_all (s : Sep) (as : List Txt) : ∃ pss, List.Forall₂ (Values s) as pss := by
  induction as with
  | nil => exact ⟨[], .nil⟩
  | cons a as ih =>
    obtain ⟨pss, h⟩ := ih
    obtain ⟨ps, hp⟩ := values_exist s a
    exact ⟨ps :: pss, .cons hp h⟩

theorem feed_values (o : Opt) (as : List Txt) (pss : List (List Txt))
    (h : List.Forall₂ (Values o.sep) as pss) :
    ∀ d : Dyn F, feed strtod o d as = feedP strtod o.kind d pss.flatten := by
  induction h with
  | nil => intro d; rfl
  | cons h _ ih =>
    intro d
    rw [feed_cons, split_values strtod o d _ _ h, List.flatten_cons, feedP_append]
    congr 1
    funext d'
    exact ih d'

/-- The count after a number of values. -/
def downs : Nat → ℤ → ℤ
  | 0, c => c
  | n + 1, c => downs n (countDown c)

theorem handleArg_vec (k : Kind) (hk : k = .ints ∨ k = .floats ∨ k = .strs) (d : Dyn F) (a : Txt) :
    (∃ v, Reads strtod k a v ∧ toOpt (handleArg strtod k d a) =
      some { d with val := d.val ++ [v], count := countDown d.count }) ∨
    (toOpt (handleArg strtod k d a) = none ∧ ∀ v, ¬ Reads strtod k a v) := by
  rcases hk with rfl | rfl | rfl
  · cases h : parseInt a with
    | none =>
      right
      constructor
      · simp [handleArg, h, toOpt]
      · intro v hv
        cases hv with
        | ints t z hz =>
          have := (parseInt_asInt a (asInt z)).mpr ⟨z, hz, rfl⟩
          rw [h] at this
          cases this
    | some z =>
      left
      obtain ⟨z', hz', rfl⟩ := (parseInt_asInt a z).mp h
      exact ⟨_, .ints a z' hz', by simp [handleArg, h, toOpt]⟩
  · cases h : strtod a with
    | none =>
      right
      constructor
      · simp [handleArg, h, toOpt]
      · intro v hv
        cases hv with
        | floats t x hx =>
          rw [h] at hx
          cases hx
    | some x =>
      left
      exact ⟨_, .floats a x h, by simp [handleArg, h, toOpt]⟩
  · left
    exact ⟨_, .strs a, by simp [handleArg, toOpt]⟩

theorem reads_fun (k : Kind) (hk : k = .ints ∨ k = .floats ∨ k = .strs) (a : Txt) (v w : Atom F)
    (hv : Reads strtod k a v) (hw : Reads strtod k a w) : v = w := by
  rcases hk with rfl | rfl | rfl
  · cases hv with
    | ints t z hz =>
      cases hw with
      | ints t z' hz' =>
        have e1 := (parseInt_asInt a (asInt z)).mpr ⟨z, hz, rfl⟩
        have e2 := (parseInt_asInt a (asInt z')).mpr ⟨z', hz', rfl⟩
        rw [e1] at e2
        rw [Option.some.inj e2]
  · cases hv with
    | floats t x hx =>
      cases hw with
      | floats t x' hx' =>
        rw [hx] at hx'
        rw [Option.some.inj hx']
  · cases hv; cases hw; rfl

theorem feedP_vec (k : Kind) (hk : k = .ints ∨ k = .floats ∨ k = .strs) (ps : List Txt) :
    ∀ d : Dyn F,
    (∃ vs, List.Forall₂ (Reads strtod k) ps vs ∧ feedP strtod k d ps =
      some { d with val := d.val ++ vs, count := downs ps.length d.count }) ∨
    (feedP strtod k d ps = none ∧ ∀ vs, ¬ List.Forall₂ (Reads strtod k) ps vs) := by
  induction ps with
  | nil =>
    intro d
    left
    exact ⟨[], .nil, by simp [feedP, downs]⟩
  | cons a ps ih =>
    intro d
    rw [feedP_cons]
    rcases handleArg_vec strtod k hk d a with ⟨v, hv, e⟩ | ⟨e, hn⟩
    · rw [e, Option.bind_some]
      rcases ih { d with val := d.val ++ [v], count := countDown d.count } with ⟨vs, hvs, e'⟩ | ⟨e', hn⟩
      · left
        refine ⟨v :: vs, .cons hv hvs, ?_⟩
        rw [e']
        simp [downs]
      · right
        refine ⟨e', ?_⟩
        intro vs hvs
        cases hvs with
        | cons h1 h2 => exact hn _ h2
    · right
      rw [e]
      refine ⟨rfl, ?_⟩
      intro vs hvs
      cases hvs with
      | cons h1 h2 => exact hn _ h1

/-- Vectors. -/
theorem feed_vec (k : Kind) (s : Sep) (hk : k = .ints ∨ k = .floats ∨ k = .strs) (as : List Txt)
    (d : Dyn F) :
    (∀ d', feed strtod ⟨k, s⟩ d as = some d' → Takes strtod ⟨k, s⟩ d.val as d'.val) ∧
    (feed strtod ⟨k, s⟩ d as = none → ∀ v, ¬ Takes strtod ⟨k, s⟩ d.val as v) := by
  constructor
  · intro d' h
    obtain ⟨pss, hp⟩ := values_all s as
    rw [feed_values strtod ⟨k, s⟩ as pss hp] at h
    rcases feedP_vec strtod k hk pss.flatten d with ⟨vs, hvs, e⟩ | ⟨e, _⟩
    · simp only at h
      rw [e] at h
      rw [← Option.some.inj h]
      exact .many k s d.val as pss vs hk hp hvs
    · simp only at h
      rw [e] at h
      cases h
  · intro h v hv
    cases hv with
    | unused => simp [feed] at h
    | set => simp at hk
    | cleared => simp at hk
    | one k' _ _ a v' hk' =>
      rcases hk with rfl | rfl | rfl <;> simp at hk'
    | many _ _ _ _ pss vs _ hp hvs =>
      rw [feed_values strtod ⟨k, s⟩ as pss hp] at h
      rcases feedP_vec strtod k hk pss.flatten d with ⟨vs, hvs, e⟩ | ⟨_, hn⟩
      · simp only at h
        rw [e] at h
        cases h
      · exact hn vs hvs

/-- A single value. -/
theorem handleArg_one (k : Kind) (hk : k = .int ∨ k = .float ∨ k = .str) (d : Dyn F)
    (hu : d.used = false) (a : Txt) :
    (∃ v, Reads strtod k a v ∧ toOpt (handleArg strtod k d a) =
      some { d with val := [v], used := true }) ∨
    (toOpt (handleArg strtod k d a) = none ∧ ∀ v, ¬ Reads strtod k a v) := by
  rcases hk with rfl | rfl | rfl
  · cases h : parseInt a with
    | none =>
      right
      constructor
      · simp [handleArg, h, hu, toOpt]
      · intro v hv
        cases hv with
        | int t z hz =>
          have := (parseInt_asInt a (asInt z)).mpr ⟨z, hz, rfl⟩
          rw [h] at this
          cases this
    | some z =>
      left
      obtain ⟨z', hz', rfl⟩ := (parseInt_asInt a z).mp h
      exact ⟨_, .int a z' hz', by simp [handleArg, h, hu, toOpt]⟩
  · cases h : strtod a with
    | none =>
      right
      constructor
      · simp [handleArg, h, hu, toOpt]
      · intro v hv
        cases hv with
        | float t x hx =>
          rw [h] at hx
          cases hx
    | some x =>
      left
      exact ⟨_, .float a x h, by simp [handleArg, h, hu, toOpt]⟩
  · left
    exact ⟨_, .str a, by simp [handleArg, hu, toOpt]⟩

theorem handleArg_twice (k : Kind) (hk : k = .int ∨ k = .float ∨ k = .str) (d : Dyn F)
    (hu : d.used = true) (a : Txt) : toOpt (handleArg strtod k d a) = none := by
  rcases hk with rfl | rfl | rfl <;> simp [handleArg, hu, toOpt]

theorem feed_one (k : Kind) (hk : k = .int ∨ k = .float ∨ k = .str) (as : List Txt) (d : Dyn F)
    (hu : d.used = false) :
    (∀ d', feed strtod ⟨k, .none⟩ d as = some d' → Takes strtod ⟨k, .none⟩ d.val as d'.val) ∧
    (feed strtod ⟨k, .none⟩ d as = none → ∀ v, ¬ Takes strtod ⟨k, .none⟩ d.val as v) := by
  cases as with
  | nil =>
    constructor
    · intro d' h
      cases h
      exact .unused _ _
    · intro h; cases h
  | cons a as =>
    rw [feed_cons]
    have hs : handleSplit strtod ⟨k, .none⟩ d a = handleArg strtod k d a := rfl
    rw [hs]
    rcases handleArg_one strtod k hk d hu a with ⟨v, hv, e⟩ | ⟨e, hn⟩
    · rw [e, Option.bind_some]
      cases as with
      | nil =>
        constructor
        · intro d' h
          cases h
          exact .one k _ _ a v hk hv
        · intro h; cases h
      | cons b as =>
        have : feed strtod ⟨k, .none⟩ { d with val := [v], used := true } (b :: as) = none := by
          rw [feed_cons]
          have hs : handleSplit strtod ⟨k, .none⟩ { d with val := [v], used := true } b =
            handleArg strtod k { d with val := [v], used := true } b := rfl
          rw [hs, handleArg_twice strtod k hk _ rfl]
          rfl
        constructor
        · intro d' h
          rw [this] at h
          cases h
        · intro _ v hv
          cases hv with
          | set => simp at hk
          | cleared => simp at hk
          | many _ _ _ _ _ _ hk' => rcases hk with rfl | rfl | rfl <;> simp at hk'
    · rw [e]
      constructor
      · intro d' h; cases h
      · intro _ v hv
        cases hv with
        | set => simp at hk
        | cleared => simp at hk
        | one _ _ _ _ _ _ h => exact hn _ h
        | many _ _ _ _ _ _ hk' => rcases hk with rfl | rfl | rfl <;> simp at hk'

/-- A flag that was already given. -/
theorem feed_flag_used (n : Bool) (as : List Txt) (d : Dyn F) (b : Bool) (hu : d.used = true)
    (hv : d.val = [.flag b]) :
    (feed strtod ⟨.flag n, .none⟩ d as = some d ∧ ∀ a ∈ as, decide (a = []) = b) ∨
    (feed strtod ⟨.flag n, .none⟩ d as = none ∧ ∃ a ∈ as, decide (a = []) ≠ b) := by
  induction as with
  | nil => left; exact ⟨rfl, by simp⟩
  | cons a as ih =>
    rw [feed_cons]
    have hs : handleSplit strtod ⟨.flag n, .none⟩ d a =
        (d, if b ≠ decide (a.length = 0) then some .negated else none) := by
      simp [handleSplit, handleArg, hu, hv, flagOf]
    rw [hs]
    by_cases hb : decide (a = []) = b
    · have : b = decide (a.length = 0) := by rw [← hb]; simp
      rw [if_neg (by simpa using this)]
      simp only [toOpt, Option.bind_some]
      rcases ih with ⟨e, h⟩ | ⟨e, x, hx, h⟩
      · left
        refine ⟨e, ?_⟩
        intro x hx
        rcases List.mem_cons.mp hx with rfl | hx
        · exact hb
        · exact h x hx
      · right
        exact ⟨e, x, by simp [hx], h⟩
    · right
      have : b ≠ decide (a.length = 0) := by
        intro h
        exact hb (by rw [h]; simp)
      rw [if_pos this]
      exact ⟨rfl, a, by simp, hb⟩

theorem feed_flag (n : Bool) (as : List Txt) (d : Dyn F) (hu : d.used = false) :
    (∀ d', feed strtod ⟨.flag n, .none⟩ d as = some d' →
      Takes strtod ⟨.flag n, .none⟩ d.val as d'.val) ∧
    (feed strtod ⟨.flag n, .none⟩ d as = none →
      ∀ v, ¬ Takes strtod ⟨.flag n, .none⟩ d.val as v) := by
  cases as with
  | nil =>
    constructor
    · intro d' h
      cases h
      exact .unused _ _
    · intro h; cases h
  | cons a as =>
    have hs : handleSplit strtod ⟨.flag n, .none⟩ d a =
        ({ d with val := [.flag (decide (a = []))], used := true }, none) := by
      simp [handleSplit, handleArg, hu]
    rw [feed_cons, hs]
    simp only [toOpt, Option.bind_some]
    rcases feed_flag_used strtod n as { d with val := [.flag (decide (a = []))], used := true }
      (decide (a = [])) rfl rfl with ⟨e, h⟩ | ⟨e, x, hx, h⟩
    · rw [e]
      constructor
      · intro d' h'
        cases h'
        simp only
        by_cases ha : a = []
        · simp only [ha, decide_true] at h ⊢
          refine .set n _ _ _ (by simp) ?_
          intro x hx
          rcases List.mem_cons.mp hx with rfl | hx
          · rfl
          · simpa using h x hx
        · simp only [ha, decide_false] at h ⊢
          refine .cleared n _ _ _ (by simp) ?_
          intro x hx
          rcases List.mem_cons.mp hx with rfl | hx
          · exact ha
          · simpa using h x hx
      · intro h'; cases h'
    · rw [e]
      constructor
      · intro d' h'; cases h'
      · intro _ v hv
        cases hv with
        | set _ _ _ _ _ hall =>
          have h1 := hall a (by simp)
          have h2 := hall x (by simp [hx])
          simp [h1, h2] at h
        | cleared _ _ _ _ _ hall =>
          have h1 := hall a (by simp)
          have h2 := hall x (by simp [hx])
          simp [h1, h2] at h
        | one _ _ _ _ _ hk => simp at hk
        | many _ _ _ _ _ _ hk => simp at hk

/-- Any option. -/
theorem feed_takes (o : Opt) (hs : ¬ (o.kind = .ints ∨ o.kind = .floats ∨ o.kind = .strs) →
    o.sep = .none) (as : List Txt) (d : Dyn F) (hu : d.used = false) :
    (∀ d', feed strtod o d as = some d' → Takes strtod o d.val as d'.val) ∧
    (feed strtod o d as = none → ∀ v, ¬ Takes strtod o d.val as v) := by
  obtain ⟨k, s⟩ := o
  simp only at hs
  by_cases hk : k = .ints ∨ k = .floats ∨ k = .strs
  · exact feed_vec strtod k s hk as d
  · have := hs hk
    subst this
    cases k with
    | flag n => exact feed_flag strtod n as d hu
    | int => exact feed_one strtod _ (by simp) as d hu
    | float => exact feed_one strtod _ (by simp) as d hu
    | str => exact feed_one strtod _ (by simp) as d hu
    | ints => simp at hk
    | floats => simp at hk
    | strs => simp at hk

end Verif.Util.Args
