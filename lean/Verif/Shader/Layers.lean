import Mathlib.Data.List.Basic
import Mathlib.Data.List.Count

/-!
Shaders made of layers, from libs/core/shaders.h, libs/core/shaders.cpp.

Simplifications: a variable is named by the number of its layer and its name, or is one of the standard variables; a value is of
any type `V`, and `SetValueFromVariable` copies it. What a layer does when it is evaluated is a function on the values. Nested
layered shaders are not considered.
-/

namespace Verif.Shader.Layers

/-- Where a variable is: an argument of the layer with a number, or a standard variable. -/
inductive Key where
  | arg (layer : Nat) (name : String)
  | std (name : String)
  deriving DecidableEq

/-- The values of all variables. -/
abbrev Store (V : Type) := Key → V

/-- A layer, `m_Layers`, libs/core/shaders.h:334: its name, its arguments, the standard variables it uses (as bits) and what it
does. -/
structure Layer (V : Type) where
  name : String
  args : List String
  uses : Nat
  eval : Store V → Store V

/-- `SqLayerConnection` with the key of the map, libs/core/shaders.h:337-343. -/
structure Conn where
  layer1 : String
  variable1 : String
  layer2 : String
  variable2 : String
  deriving DecidableEq

/-- The members of `CqLayeredShader`, libs/core/shaders.h:328-343. The map from names to numbers is the list of what was put into
it, the last first. The connections are in the order in which they were added; those with equal keys keep that order in a
`multimap`. -/
structure Shader (V : Type) where
  uses : Nat
  layers : List (Layer V)
  layerMap : List (String × Nat)
  connections : List Conn

variable {V : Type}

/-- The constructor, libs/core/shaders.h:147-154. -/
def new : Shader V := ⟨0xFFFFFFFF, [], [], []⟩

/-- The copy constructor, libs/core/shaders.h:155-158, and `Clone`, libs/core/shaders.h:273-276: the members are made anew;
`m_Uses` has any value `u`. -/
def clone (u : Nat) (_ : Shader V) : Shader V := ⟨u, [], [], []⟩

/-- `AddLayer`, libs/core/shaders.cpp:40-48. -/
def addLayer (s : Shader V) (l : Layer V) : Shader V :=
  let layers := s.layers ++ [l]
  { s with layers := layers, layerMap := (l.name, layers.length - 1) :: s.layerMap, uses := s.uses ||| l.uses }

/-- `AddConnection`, libs/core/shaders.cpp:51-60. -/
def addConnection (s : Shader V) (layer1 variable1 layer2 variable2 : String) : Shader V :=
  { s with connections := s.connections ++ [⟨layer1, variable1, layer2, variable2⟩] }

/-- `FindArgument` of a layer that has the number `i`, or `FindStandardVar` if it has no such argument, libs/core/shaders.cpp:93-95,
97-99. `std` are the standard variables there are. -/
def find (std : List String) (i : Nat) (l : Layer V) (v : String) : Option Key :=
  if v ∈ l.args then some (.arg i v)
  else if v ∈ std then some (.std v)
  else none

/-- The body of the loop over connections, libs/core/shaders.cpp:90-102, after the layer `l` with the number `i`. -/
def connect (std : List String) (s : Shader V) (i : Nat) (l : Layer V) (σ : Store V) (c : Conn) : Store V :=
  match s.layerMap.lookup c.layer2 with
  | none => σ
  | some j =>
    match s.layers[j]? with
    | none => σ
    | some t =>
      match find std i l c.variable1, find std j t c.variable2 with
      | some o, some d => Function.update σ d (σ o)
      | _, _ => σ

/-- The body of the loop over layers, libs/core/shaders.cpp:79-105. -/
def step (std : List String) (s : Shader V) (σ : Store V) (x : Layer V × Nat) : Store V :=
  let σ := x.1.eval σ
  (s.connections.filter fun c => c.layer1 == x.1.name).foldl (connect std s x.2 x.1) σ

/-- `Evaluate`, libs/core/shaders.cpp:70-109. -/
def evaluate (std : List String) (s : Shader V) (σ : Store V) : Store V :=
  s.layers.zipIdx.foldl (step std s) σ

/-- The loop of `FindArgument`, libs/core/shaders.h:223-231, over the layers from the last, with their numbers. -/
def findArgumentLoop (v : String) : List (Layer V × Nat) → Option Key
  | [] => none
  | x :: r => if v ∈ x.1.args then some (.arg x.2 v) else findArgumentLoop v r

/-- `FindArgument`, libs/core/shaders.h:219-232; `GetVariableValue`, libs/core/shaders.h:234-246, goes the same way. -/
def findArgument (s : Shader V) (v : String) : Option Key := findArgumentLoop v s.layers.zipIdx.reverse

/-- `SetArgument`, libs/core/shaders.h:199-208: the value is passed on to each layer; one that has the argument takes it. -/
def setArgument (s : Shader V) (v : String) (val : V) (σ : Store V) : Store V :=
  s.layers.zipIdx.foldl (fun σ x => if v ∈ x.1.args then Function.update σ (.arg x.2 v) val else σ) σ

/-- `Uses( Var )`, libs/core/shaders.h:277-281, and the same in libs/shadervm/shadervm.h:168-172: it calls itself, as there is no
other function `Uses` with one argument. `fuel` is the number of calls that fit on the stack; `none` is a stack overflow. -/
def usesVar (s : Shader V) : Nat → Nat → Option Bool
  | 0, _ => none
  | fuel + 1, var => usesVar s fuel var

end Verif.Shader.Layers
