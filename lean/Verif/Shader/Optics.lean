import Mathlib.Analysis.SpecialFunctions.Pow.Real
import Verif.Shader.Arith

/-!
# Reflection and refraction

Model of `reflect`, `refract`, `fresnel`, `depth` and `specularbrdf` at one point of a grid,
libs/shadervm/shaderexecenv/shadeops_illum.cpp. Numbers are exact. Vectors are functions of their index as in C101.
-/

namespace Verif.Shader.Optics

open Verif.Shader.Arith (dot unit)

/-- Vectors. -/
abbrev Vec := Fin 3 → ℝ

/-- `reflect`, libs/shadervm/shaderexecenv/shadeops_illum.cpp:166-191. -/
noncomputable def reflect (i n : Vec) : Vec :=
  let idn := 2 * dot i n
  fun k => i k - idn * n k

/-- `refract`, libs/shadervm/shaderexecenv/shadeops_illum.cpp:196-225. -/
noncomputable def refract (i n : Vec) (eta : ℝ) : Vec :=
  let idn := dot i n
  let k := 1 - eta * eta * (1 - idn * idn)
  if k < 0 then 0 else fun j => eta * i j - (eta * idn + Real.sqrt k) * n j

/-- What `fresnel` stores in `Kr` and `Kt`, libs/shadervm/shaderexecenv/shadeops_illum.cpp:258-272; `none`: a division by zero. -/
noncomputable def fresnel (i n : Vec) (eta : ℝ) : Option (ℝ × ℝ) :=
  let c := dot (fun k => -i k) n
  if eta = 0 then none
  else
    let q := (1 / eta) * (1 / eta)
    let a := q - (1 - c * c)
    let b := |a|
    let u2 := (a + b) / 2
    let v2 := (-a + b) / 2
    let v := if v2 = 0 then 0 else Real.sqrt |v2|
    let u := if u2 = 0 then 0 else Real.sqrt |u2|
    let d1 := (c + u) * (c + u) + v2
    let d2 := (q * c + u) * (q * c + u) + v * v
    if d1 = 0 ∨ d2 = 0 then none
    else
      let perp := ((c - u) * (c - u) + v2) / d1
      let para := ((q * c - u) * (q * c - u) + (-v) * (-v)) / d2
      let kr := 1 / 2 * (perp + para)
      some (kr, 1 - kr)

/-- What the form of `fresnel` with directions stores in `Kr`, `Kt`, `R` and `T`,
libs/shadervm/shaderexecenv/shadeops_illum.cpp:280-333. -/
noncomputable def fresnelRT (i n : Vec) (eta : ℝ) : Option ((ℝ × ℝ) × Vec × Vec) :=
  (fresnel i n eta).map fun k => (k, reflect i n, refract i n eta)

/-- `depth`, libs/shadervm/shaderexecenv/shadeops_illum.cpp:352-364; `none`: a division by zero. -/
noncomputable def depth (near far : ℝ) (p : Vec) : Option ℝ :=
  if far - near = 0 then none else some ((p 2 - near) / (far - near))

/-- What `specularbrdf` multiplies the light by, libs/shadervm/shaderexecenv/shadeops_illum.cpp:1028-1043; also in `specular`,
libs/shadervm/shaderexecenv/shadeops_illum.cpp:576-595. -/
noncomputable def specularbrdf (l n v : Vec) (rough : ℝ) : Option ℝ :=
  let l := unit l
  let h := unit fun k => l k + v k
  if rough = 0 then none else some (max 0 (dot n h) ^ (1 / (rough / 8)))

end Verif.Shader.Optics
