import Mathlib.Data.Rat.Floor
import Mathlib.Tactic.Ring
import Mathlib.Tactic.FieldSimp
import Mathlib.Tactic.NormNum
import Mathlib.Tactic.Linarith
import Verif.Rib.Tokenizer
/-!
# The value computed for a decimal literal

`readNumber` (ribtokenizer.cpp:358-462) computes a `float` with one `float` or `double` operation
per digit.  Here the same computation over the rationals, with the rounding of `float` results
(`rf`) and of `double` results (`rd`) as parameters.
-/
namespace Verif.Rib

/-- ribtokenizer.cpp:386-387: `floatResult *= 10; floatResult += c - '0'`. -/
def accInt (rf : ℚ → ℚ) (ds : List Nat) : ℚ :=
  ds.foldl (fun a c => rf (rf (a * 10) + ((c - 48 : Nat) : ℚ))) 0

/-- ribtokenizer.cpp:401-407: `floatResult += (c-'0')*thisPlaceVal; thisPlaceVal *= 0.1` where
`thisPlaceVal` is a float and `0.1` a double. -/
def accFrac (rf rd : ℚ → ℚ) (a p : ℚ) : List Nat → ℚ
  | [] => a
  | c :: cs => accFrac rf rd (rf (a + rf (((c - 48 : Nat) : ℚ) * p))) (rf (rd (p * rd (1 / 10)))) cs

/-- The float value of a `dec` token: integer part, fraction, sign (408, 419), exponent (460,
`std::pow(10.0, exponent)` taken as the rounded power).  A literal without exponent is not
multiplied by anything; as `10^0 = 1` the model does not distinguish it from exponent 0. -/
def codeValue (rf rd : ℚ → ℚ) (neg : Bool) (ds fs : List Nat) (e : Int) : ℚ :=
  let a := accFrac rf rd (accInt rf ds) (rf (rd (1 / 10))) fs
  rf (rd (rf (a * (if neg then -1 else 1)) * rd (10 ^ e)))

/-- Spec: the mathematical value of sign, digits before and after the point, and exponent. -/
def decimalValue (neg : Bool) (ds fs : List Nat) (e : Int) : ℚ :=
  (if neg then -1 else 1) * (digitsVal (ds ++ fs) : ℚ) * 10 ^ (e - fs.length)

theorem accInt_id (ds : List Nat) : accInt id ds = (digitsVal ds : ℚ) := by
  have : ∀ (ds : List Nat) (n : Nat), ds.foldl (fun (a : ℚ) c => id (id (a * 10) + ((c - 48 : Nat) : ℚ))) (n : ℚ) =
      ((ds.foldl (fun a c => a * 10 + (c - 48)) n : Nat) : ℚ) := by
    intro ds
    induction ds with
    | nil => intro n; rfl
    | cons c cs ih =>
      intro n
      simp only [List.foldl_cons, id]
      have := ih (n * 10 + (c - 48))
      simp only [id] at this
      rw [← this]
      push_cast
      rfl
  have h := this ds 0
  rw [Nat.cast_zero] at h
  exact h

theorem foldl_digits_append (fs : List Nat) (n : Nat) :
    fs.foldl (fun a c => a * 10 + (c - 48)) n = n * 10 ^ fs.length + digitsVal fs := by
  induction fs generalizing n with
  | nil => simp [digitsVal]
  | cons c cs ih =>
    simp only [List.foldl_cons, digitsVal, List.length_cons]
    rw [ih, ih (0 * 10 + (c - 48))]
    ring

theorem accFrac_id (fs : List Nat) (a p : ℚ) :
    accFrac id id a p fs = a + p * 10 * (digitsVal fs : ℚ) / 10 ^ fs.length := by
  induction fs generalizing a p with
  | nil => simp [accFrac, digitsVal]
  | cons c cs ih =>
    simp only [accFrac, id] at ih ⊢
    rw [ih]
    have hd : digitsVal (c :: cs) = (c - 48) * 10 ^ cs.length + digitsVal cs := by
      rw [digitsVal, List.foldl_cons, foldl_digits_append]; ring
    rw [hd, List.length_cons]
    push_cast
    field_simp
    ring

end Verif.Rib
