import Mathlib.Analysis.SpecialFunctions.Trigonometric.Inverse
import Mathlib.Analysis.SpecialFunctions.Pow.Real
import Verif.Shader.Optics

/-!
# Loops over lights

Model of the loops over lights in shaders: `illuminance`, `ambient`, `diffuse`, `specular`, `phong`, and of `illuminate`
and `solar` in the shaders of lights, libs/shadervm/shaderexecenv/shadeops_illum.cpp. Numbers are exact. What a light
shader has stored (`L`, `Cl`) is given. Values at the points of a grid are functions of the number of a point; the loops
over points treat each point by itself and are written as such. A power of zero with a negative exponent is not modelled
(it is infinite in C and zero here).
-/

namespace Verif.Shader.Lights

open Verif.Shader.Arith (dot unit clamp)
open Verif.Shader.Optics (Vec reflect)

/-- A light as a shader of a surface sees it: `fAmbient`, the argument `__category`, the variables `__nondiffuse` and
`__nonspecular` (if the light has them), and `L` and `Cl` at each point,
libs/shadervm/shaderexecenv/shadeops_illum.cpp:459-470, 547-558, 781-784, 818-826. -/
structure Light where
  ambient : Bool
  category : Option (List Char)
  nondiffuse : Option ℝ
  nonspecular : Option ℝ
  L : Nat → Vec
  Cl : Nat → Vec

/-- The loop passing over ambient lights, libs/shadervm/shaderexecenv/shadeops_illum.cpp:54-58, 79-83. -/
def skip (lights : List Light) (li : Nat) : Nat :=
  if h : li < lights.length then
    if lights[li].ambient then skip lights (li + 1) else li
  else li
termination_by lights.length - li

/-- `SO_init_illuminance`, libs/shadervm/shaderexecenv/shadeops_illum.cpp:43-63; `lighting`: the option is not zero. The
number of the first light, `none` for `false`. -/
def init (lighting : Bool) (lights : List Light) : Option Nat :=
  if !lighting then none
  else
    let li := skip lights 0
    if li < lights.length then some li else none

/-- `SO_advance_illuminance`, libs/shadervm/shaderexecenv/shadeops_illum.cpp:68-88. -/
def advance (lighting : Bool) (lights : List Light) (li : Nat) : Option Nat :=
  if !lighting then none
  else
    let li := skip lights (li + 1)
    if li < lights.length then some li else none

/-- The loops `do … while ( SO_advance_illuminance() )`, libs/shadervm/shaderexecenv/shadeops_illum.cpp:457-509, 545-603,
667-705; the number of turns is bounded by the number of lights. -/
def turns {S : Type} (lighting : Bool) (lights : List Light) (body : Light → S → S) : Nat → Nat → S → S
  | 0, _, s => s
  | fuel + 1, li, s =>
    if h : li < lights.length then
      let s := body lights[li] s
      match advance lighting lights li with
      | none => s
      | some li => turns lighting lights body fuel li s
    else s

/-- The loop with its beginning, libs/shadervm/shaderexecenv/shadeops_illum.cpp:454-510, 542-604, 665-706. -/
def loop {S : Type} (lighting : Bool) (lights : List Light) (body : Light → S → S) (s : S) : S :=
  match init lighting lights with
  | none => s
  | some li => turns lighting lights body lights.length li s

/-- `std::string::find` of a comma, libs/shadervm/shaderexecenv/shadeops_illum.cpp:791. -/
def findComma (s : List Char) (pos : Nat) : Option Nat :=
  if h : pos < s.length then
    if s[pos] = ',' then some pos else findComma s (pos + 1)
  else none
termination_by s.length - pos

/-- `substr(pos, n)`; `none` for `npos`, libs/shadervm/shaderexecenv/shadeops_illum.cpp:792. -/
def substr (s : List Char) (pos : Nat) : Option Nat → List Char
  | none => s.drop pos
  | some n => (s.drop pos).take n

/-- The search for a category, libs/shadervm/shaderexecenv/shadeops_illum.cpp:789-805; the second argument of `substr` is
the place of the comma. The number of turns is bounded. -/
def search (catname s : List Char) (exclude : Bool) : Nat → Nat → Bool
  | 0, _ => false
  | fuel + 1, tokenpos =>
    let tokenend := findComma s tokenpos
    if catname = substr s tokenpos tokenend ∧ exclude = false then true
    else match tokenend with
      | none => false
      | some e => search catname s exclude fuel (e + 1)

/-- Whether `illuminance` takes a light, libs/shadervm/shaderexecenv/shadeops_illum.cpp:761-807. -/
def exec (cat : List Char) (light : Option (List Char)) : Bool :=
  if cat = [] then true
  else
    let exclude := decide (cat.head? = some '-')
    let catname := if exclude then cat.drop 1 else cat
    match light with
    | none => true
    | some s => search catname s exclude (s.length + 1) 0

/-- `L`, `Cl` and the current state at each point. -/
structure Env where
  L : Nat → Vec
  Cl : Nat → Vec
  cur : Nat → Bool

/-- Whether a direction is outside a cone, libs/shadervm/shaderexecenv/shadeops_illum.cpp:829-839, 885-897. -/
noncomputable def outside (d axis : Vec) (angle : ℝ) : Prop :=
  let cosangle := clamp (dot (unit d) axis) (-1) 1
  Real.arccos cosangle > angle

open Classical in
/-- `SO_illuminance`, libs/shadervm/shaderexecenv/shadeops_illum.cpp:738-848; `none` for the axis or the angle: the null
pointer. -/
noncomputable def illuminance (cat : List Char) (axis : Option (Nat → Vec)) (angle : Option (Nat → ℝ)) (l : Light)
    (rs : Nat → Bool) (e : Env) : Env :=
  if exec cat l.category then
    { L := fun g => if rs g then fun k => -l.L g k else e.L g
      Cl := fun g => if rs g then l.Cl g else e.Cl g
      cur := fun g =>
        if rs g then
          !decide (outside (fun k => -l.L g k) ((axis.map (· g)).getD ![0, 1, 0]) ((angle.map (· g)).getD Real.pi))
        else e.cur g }
  else e

/-- `SO_ambient`, libs/shadervm/shaderexecenv/shadeops_illum.cpp:374-425. -/
def ambient (lighting : Bool) (lights : List Light) (rs : Nat → Bool) (result : Nat → Vec) : Nat → Vec :=
  if !lighting then result
  else
    lights.foldl (fun res l => if l.ambient then fun g => if rs g then fun k => res g k + l.Cl g k else res g else res)
      fun _ _ => 0

/-- State of the loops of `diffuse` and `specular`: the temporary variable, the environment and the result. -/
structure St where
  non : ℝ
  env : Env
  res : Nat → Vec

/-- `GetVariableValue` of a light into the temporary variable, libs/shadervm/shadervm.cpp:1903-1922. -/
def readVar (said : Option ℝ) (old : ℝ) : ℝ :=
  match said with
  | some x => x
  | none => old

open Classical in
/-- The body of the loop in `SO_diffuse`, libs/shadervm/shaderexecenv/shadeops_illum.cpp:458-506. -/
noncomputable def diffuseBody (N : Nat → Vec) (rs : Nat → Bool) (l : Light) (s : St) : St :=
  let v := readVar l.nondiffuse s.non
  if v ≠ 0 then { s with non := v }
  else
    let e := illuminance [] (some N) (some fun _ => Real.pi / 2) l rs s.env
    { non := v
      env := e
      res := fun g => if e.cur g then fun k => s.res g k + e.Cl g k * dot (unit (e.L g)) (N g) else s.res g }

/-- `SO_diffuse`, libs/shadervm/shaderexecenv/shadeops_illum.cpp:430-513; a new temporary variable is zero
(libs/shadervm/shadervariable.h:1065-1068). -/
noncomputable def diffuse (lighting : Bool) (lights : List Light) (N : Nat → Vec) (rs : Nat → Bool) (e : Env) : Nat → Vec :=
  (loop lighting lights (diffuseBody N rs) ⟨0, e, fun _ _ => 0⟩).res

open Classical in
/-- The body of the loop in `SO_specular`, libs/shadervm/shaderexecenv/shadeops_illum.cpp:546-600. -/
noncomputable def specularBody (N V : Nat → Vec) (rough : Nat → ℝ) (rs : Nat → Bool) (l : Light) (s : St) : St :=
  let v := readVar l.nonspecular s.non
  if v ≠ 0 then { s with non := v }
  else
    let e := illuminance [] (some N) (some fun _ => Real.pi / 2) l rs s.env
    { non := v
      env := e
      res := fun g =>
        if e.cur g then
          let ln := unit (e.L g)
          let h := unit fun k => ln k + V g k
          fun k => s.res g k + e.Cl g k * (max 0 (dot (N g) h)) ^ (1 / (rough g / 8))
        else s.res g }

/-- `SO_specular`, libs/shadervm/shaderexecenv/shadeops_illum.cpp:518-607. -/
noncomputable def specular (lighting : Bool) (lights : List Light) (N V : Nat → Vec) (rough : Nat → ℝ) (rs : Nat → Bool)
    (e : Env) : Nat → Vec :=
  (loop lighting lights (specularBody N V rough rs) ⟨0, e, fun _ _ => 0⟩).res

/-- The vectors of reflection in `SO_phong`, libs/shadervm/shaderexecenv/shadeops_illum.cpp:617-647, at running points. -/
noncomputable def phongR (N V : Nat → Vec) (g : Nat) : Vec :=
  reflect (fun k => -unit (V g) k) (unit (N g))

open Classical in
/-- The body of the loop in `SO_phong`, libs/shadervm/shaderexecenv/shadeops_illum.cpp:668-702. -/
noncomputable def phongBody (N V : Nat → Vec) (size : Nat → ℝ) (rs : Nat → Bool) (l : Light) (s : St) : St :=
  let e := illuminance [] (some N) (some fun _ => Real.pi / 2) l rs s.env
  { s with
    env := e
    res := fun g =>
      if e.cur g then fun k => s.res g k + e.Cl g k * (max 0 (dot (phongR N V g) (unit (e.L g)))) ^ size g
      else s.res g }

/-- `SO_phong`, libs/shadervm/shaderexecenv/shadeops_illum.cpp:612-709. -/
noncomputable def phong (lighting : Bool) (lights : List Light) (N V : Nat → Vec) (size : Nat → ℝ) (rs : Nat → Bool)
    (e : Env) : Nat → Vec :=
  (loop lighting lights (phongBody N V size rs) ⟨0, e, fun _ _ => 0⟩).res

/-- The environment of a light with the number of blocks so far, `m_Illuminate`. -/
structure LightEnv extends Env where
  count : Nat

open Classical in
/-- `SO_illuminate`, libs/shadervm/shaderexecenv/shadeops_illum.cpp:859-911. -/
noncomputable def illuminate (Ps P : Nat → Vec) (axis : Option (Nat → Vec)) (angle : Option (Nat → ℝ)) (rs : Nat → Bool)
    (e : LightEnv) : LightEnv :=
  if e.count > 0 then { e with count := e.count + 1 }
  else
    let out := fun g =>
      outside (fun k => Ps g k - P g k) ((axis.map (· g)).getD ![0, 1, 0]) ((angle.map (· g)).getD Real.pi)
    { L := fun g => if rs g then fun k => Ps g k - P g k else e.L g
      Cl := fun g => if rs g ∧ out g then 0 else e.Cl g
      cur := fun g => if rs g then !decide (out g) else e.cur g
      count := e.count + 1 }

/-- `SO_solar`, libs/shadervm/shaderexecenv/shadeops_illum.cpp:922-954. -/
def solar (Ns : Nat → Vec) (axis : Option (Nat → Vec)) (rs : Nat → Bool) (e : LightEnv) : LightEnv :=
  if e.count > 0 then { e with count := e.count + 1 }
  else
    { e with
      L := fun g => if rs g then ((axis.map (· g)).getD fun k => -Ns g k) else e.L g
      cur := fun g => if rs g then true else e.cur g
      count := e.count + 1 }

/-- The sign in `SO_calculatenormal`, libs/shadervm/shaderexecenv/shadeops_illum.cpp:1057-1063. -/
def normalSign (CSO O : Bool) : ℝ := if !((O && CSO) || (!O && !CSO)) then -1 else 1

/-- `SO_calculatenormal` from the differences of the points, libs/shadervm/shaderexecenv/shadeops_illum.cpp:1074-1078. -/
noncomputable def calculatenormal (CSO O : Bool) (du dv : Vec) : Vec :=
  let n : Vec := ![du 1 * dv 2 - du 2 * dv 1, du 2 * dv 0 - du 0 * dv 2, du 0 * dv 1 - du 1 * dv 0]
  fun k => unit n k * normalSign CSO O

end Verif.Shader.Lights
