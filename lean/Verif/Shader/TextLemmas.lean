import Verif.Shader.Text
import Mathlib.Tactic.Common

/-!
Lemmas about Functions on text
-/

namespace Verif.Shader.Text

namespace Spec

/-- A piece of a format: a character as it is, a value, or a character after `%` that stands for itself. -/
inductive Piece where
  | plain (c : Char)
  | value (c : Char)
  | other (c : Char)

/-- Which pieces there can be. -/
def Piece.Ok : Piece → Prop
  | .plain c => c ≠ '%'
  | .value c => c = 'f' ∨ c = 'p' ∨ c = 'c' ∨ c = 'm' ∨ c = 's'
  | .other c => ¬ (c = 'f' ∨ c = 'p' ∨ c = 'c' ∨ c = 'm' ∨ c = 's')

/-- A piece as it is written. -/
def Piece.written : Piece → List Char
  | .plain c => [c]
  | .value c => ['%', c]
  | .other c => ['%', c]

/-- The format that is made of pieces. -/
def written : List Piece → List Char
  | [] => []
  | p :: ps => p.written ++ written ps

/-- How many values pieces ask for. -/
def asked : List Piece → Nat
  | [] => 0
  | .value _ :: ps => asked ps + 1
  | _ :: ps => asked ps

/-- The text of pieces at a point, with the values in order. -/
def filled (g : Nat) : List Piece → List Arg → List Char
  | [], _ => []
  | .plain c :: ps, args => c :: filled g ps args
  | .other c :: ps, args => c :: filled g ps args
  | .value _ :: ps, [] => filled g ps []
  | .value c :: ps, a :: args => a g c ++ filled g ps args

/-- Something is varying. -/
def anyVarying (l : List Bool) : Prop := ∃ b ∈ l, b = true

/-- The running points of a grid in order. -/
def running (count : Nat) (rs : Nat → Bool) : List Nat := (List.range count).filter rs

end Spec

open Spec

/-! ## Formats -/

theorem mem_letters (c : Char) : c ∈ letters ↔ c = 'f' ∨ c = 'p' ∨ c = 'c' ∨ c = 'm' ∨ c = 's' := by
  simp [letters]

theorem loop_plain (g : Nat) (c : Char) (hc : c ≠ '%') (r : List Char) (args : List Arg) (res : List Char) :
    sprintfLoop g (c :: r) args res = sprintfLoop g r args (res ++ [c]) := by
  rw [sprintfLoop.eq_def]
  split <;> simp_all

theorem loop_value (g : Nat) (c : Char) (hc : c ∈ letters) (r : List Char) (args : List Arg) (res : List Char) :
    sprintfLoop g ('%' :: c :: r) args res = match args with
      | [] => none
      | a :: args => sprintfLoop g r args (res ++ a g c) := by
  rw [sprintfLoop.eq_def]
  cases args <;> simp [hc]

theorem loop_other (g : Nat) (c : Char) (hc : c ∉ letters) (r : List Char) (args : List Arg) (res : List Char) :
    sprintfLoop g ('%' :: c :: r) args res = sprintfLoop g r args (res ++ [c]) := by
  rw [sprintfLoop.eq_def]
  simp [hc]

theorem loop_pieces (g : Nat) (ps : List Piece) (hok : ∀ p ∈ ps, p.Ok) (tail : List Char) (args : List Arg) (res : List Char)
    (h : asked ps ≤ args.length) :
    sprintfLoop g (written ps ++ tail) args res = sprintfLoop g tail (args.drop (asked ps)) (res ++ filled g ps args) := by
  induction ps generalizing args res with
  | nil => simp [written, asked, filled]
  | cons p ps ih =>
    have hok' : ∀ p ∈ ps, p.Ok := fun q hq => hok q (by simp [hq])
    have hp := hok p (by simp)
    cases p with
    | plain c =>
      simp only [written, Piece.written, List.cons_append, List.nil_append, asked, filled] at *
      rw [loop_plain g c hp, ih hok' _ _ h]
      simp
    | other c =>
      simp only [written, Piece.written, List.cons_append, List.nil_append, asked, filled] at *
      rw [loop_other g c (by rw [mem_letters]; exact hp), ih hok' _ _ h]
      simp
    | value c =>
      cases args with
      | nil => simp [asked] at h
      | cons a args =>
        simp only [written, Piece.written, List.cons_append, List.nil_append, asked, filled, List.length_cons] at *
        rw [loop_value g c (by rw [mem_letters]; exact hp)]
        simp only
        rw [ih hok' _ _ (by omega)]
        simp

/-! ## Grids -/

theorem any_cons (b : Bool) (l : List Bool) : anyVarying (b :: l) ↔ b = true ∨ anyVarying l := by
  simp [anyVarying]

theorem any_map {A : Type} (f : A → Bool) (l : List A) : anyVarying (l.map f) ↔ ∃ a ∈ l, f a = true := by
  simp [anyVarying]

theorem grid_uniform {S : Type} (rs : Nat → Bool) (body : Nat → S → S) (n g : Nat) (s : S) (hn : 0 < n) :
    gridLoop false rs body n g s = body g s := by
  cases n with
  | zero => omega
  | succ n => simp [gridLoop]

theorem grid_varying {S : Type} (rs : Nat → Bool) (body : Nat → S → S) (n g : Nat) (s : S) :
    gridLoop true rs body n g s = ((List.range' g n).filter rs).foldl (fun s g => body g s) s := by
  induction n generalizing g s with
  | zero => simp [gridLoop]
  | succ n ih =>
    rw [List.range'_succ, gridLoop]
    by_cases h : rs g = true
    · simp [h, ih]
    · simp [h, ih]

theorem fold_or {A : Type} (f : A → Bool) (l : List A) (b : Bool) :
    (l.foldl (fun v a => f a || v) b) = true ↔ b = true ∨ ∃ a ∈ l, f a = true := by
  induction l generalizing b with
  | nil => simp
  | cons a l ih =>
    rw [List.foldl_cons, ih]
    simp only [Bool.or_eq_true, List.mem_cons]
    constructor
    · rintro ((h | h) | ⟨x, h1, h2⟩)
      · exact Or.inr ⟨a, Or.inl rfl, h⟩
      · exact Or.inl h
      · exact Or.inr ⟨x, Or.inr h1, h2⟩
    · rintro (h | ⟨x, rfl | h1, h2⟩)
      · exact Or.inl (Or.inr h)
      · exact Or.inl (Or.inl h2)
      · exact Or.inr ⟨x, h1, h2⟩

theorem fold_append {A : Type} (f : Nat → A) (l : List Nat) (out : List A) :
    l.foldl (fun s g => s ++ [f g]) out = out ++ l.map f := by
  induction l generalizing out with
  | nil => simp
  | cons g l ih => simp [ih]

theorem fold_set {A : Type} (f : Nat → A) (l : List Nat) (r : Var A) (hr : r.varying = true) :
    (l.foldl (fun r g => r.set g (f g)) r).varying = true ∧
    ∀ k, (l.foldl (fun r g => r.set g (f g)) r).val k = if k ∈ l then f k else r.val k := by
  induction l generalizing r with
  | nil => simp [hr]
  | cons g l ih =>
    rw [List.foldl_cons]
    have h1 : (r.set g (f g)).varying = true := by simp [Var.set, hr]
    obtain ⟨h2, h3⟩ := ih _ h1
    refine ⟨h2, fun k => ?_⟩
    rw [h3]
    by_cases hk : k ∈ l
    · simp [hk]
    · by_cases hg : k = g
      · subst hg
        simp [hk, Var.set, hr]
      · simp [hk, hg, Var.set, hr]

theorem mem_running (count : Nat) (rs : Nat → Bool) (k : Nat) : k ∈ (List.range' 0 count).filter rs ↔ k < count ∧ rs k = true := by
  rw [← List.range_eq_range']
  simp

theorem fold_text (g : Nat) (l : List (Var (List Char))) (s : List Char) :
    l.foldl (fun s x => s ++ x.get g) s = s ++ l.flatMap fun x => x.get g := by
  induction l generalizing s with
  | nil => simp
  | cons x l ih => simp [ih]

end Verif.Shader.Text
