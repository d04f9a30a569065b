import Verif.Shader.Simd

/-!
What a shader does at one point: the specification for the property on varying control flow.
-/

namespace Verif.Shader.Simd

variable {V : Type}

/-! ## The meaning of a shader at one point -/

/-- Value of an expression, given the values of the variables. -/
def Expr.eval (truth : V → Bool) (σ : Nat → V) : Expr V → V
  | .const v => v
  | .var x => σ x
  | .un f a => f (a.eval truth σ)
  | .bin f a b => f (a.eval truth σ) (b.eval truth σ)
  | .cond c a b => if truth (c.eval truth σ) then a.eval truth σ else b.eval truth σ

/-- How a statement ends: normally, or by leaving (breaking or continuing) the loop with `k` loops
in between. -/
inductive Sig where
  | normal
  | brk (k : Nat)
  | cont (k : Nat)
deriving DecidableEq, Repr

/-- Assignment. -/
def upd (σ : Nat → V) (x : Nat) (v : V) : Nat → V := fun y => if y = x then v else σ y

/-- The incrementor. -/
def incr (truth : V → Bool) : Option (Nat × Expr V) → (Nat → V) → Nat → V
  | none, σ => σ
  | some (x, e), σ => upd σ x (e.eval truth σ)

/-- Execution of a statement at one point, with a bound on the depth of the execution. -/
def exec (truth : V → Bool) : Nat → Stmt V → (Nat → V) → Option ((Nat → V) × Sig)
  | 0, _, _ => none
  | _ + 1, .assign x e, σ => some (upd σ x (e.eval truth σ), .normal)
  | _ + 1, .expr _, σ => some (σ, .normal)
  | f + 1, .seq a b, σ =>
    (exec truth f a σ).bind fun r => if r.2 = .normal then exec truth f b r.1 else some r
  | f + 1, .ifThen c t, σ => if truth (c.eval truth σ) then exec truth f t σ else some (σ, .normal)
  | f + 1, .ifElse c t e, σ => if truth (c.eval truth σ) then exec truth f t σ else exec truth f e σ
  | f + 1, .loop c b inc, σ =>
    if truth (c.eval truth σ) then
      (exec truth f b σ).bind fun r =>
        match r.2 with
        | .normal => exec truth f (.loop c b inc) (incr truth inc r.1)
        | .cont 0 => exec truth f (.loop c b inc) (incr truth inc r.1)
        | .brk 0 => some (r.1, .normal)
        | .brk (k + 1) => some (r.1, .brk k)
        | .cont (k + 1) => some (r.1, .cont k)
    else some (σ, .normal)
  | _ + 1, .brk m, σ => some (σ, .brk (m - 1))
  | _ + 1, .cont m, σ => some (σ, .cont (m - 1))

/-- Loops are counted from one in `break` and `continue`; the parser accepts no other counts,
libs/slcomp/parse/parser.yy:1366-1377. -/
def Stmt.Counted : Stmt V → Prop
  | .assign _ _ | .expr _ => True
  | .seq a b => a.Counted ∧ b.Counted
  | .ifThen _ t => t.Counted
  | .ifElse _ t e => t.Counted ∧ e.Counted
  | .loop _ b _ => b.Counted
  | .brk m | .cont m => 1 ≤ m

/-- `break m` and `continue m` are inside at least `m` loops, of which `d` surround the statement. -/
def Stmt.Nested : Stmt V → Nat → Prop
  | .assign _ _, _ | .expr _, _ => True
  | .seq a b, d => a.Nested d ∧ b.Nested d
  | .ifThen _ t, d => t.Nested d
  | .ifElse _ t e, d => t.Nested d ∧ e.Nested d
  | .loop _ b _, d => b.Nested (d + 1)
  | .brk m, d | .cont m, d => m ≤ d

end Verif.Shader.Simd
