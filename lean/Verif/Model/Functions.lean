import Verif.Model.Eof
import Mathlib.Analysis.SpecialFunctions.Trigonometric.Arctan
import Mathlib.Analysis.SpecialFunctions.Complex.Arg
/-!
# Functions of variables (`pygeode/ufunc.py`)

The functions PyGeode offers on variables: those of numpy, their versions in degrees, sums and
products of any number of variables, `clip`, and `map` for functions of the user's own.  Numbers
are exact reals; `nan` and infinities are left out, so that the functions which give them are
described where they are defined only.
-/
namespace PyGeode
namespace Functions
open NArr Combine VarOps Eof

/-- A Python function of numbers: `none` when it is called with a number of arguments it does
not take. -/
abbrev Fn := List ℝ → Option ℝ

/-- A function of one number. -/
def unary (f : ℝ → ℝ) : Fn
  | [x] => some (f x)
  | _ => none

/-- A function of two numbers. -/
def binary (f : ℝ → ℝ → ℝ) : Fn
  | [x, y] => some (f x y)
  | _ => none

/-- `_deg2rad`, ufunc.py:236-238. -/
noncomputable def deg2rad : Fn := unary fun x => x * Real.pi / 180

/-- `_rad2deg`, ufunc.py:248-250. -/
noncomputable def rad2deg : Fn := unary fun x => x * 180 / Real.pi

/-- `chain(*f)`, ufunc.py:199-205: the functions applied from the last to the first.  What it
makes of several functions is a function of one argument (line 203). -/
def chain : List Fn → Option Fn
  | [] => none
  | [f] => some f
  | f :: g :: fs => (chain (g :: fs)).map fun h => fun args => match args with
    | [x] => (h [x]).bind fun y => f [y]
    | _ => none

/-- numpy's `arctan2(y, x)`: the angle of the point `(x, y)`. -/
noncomputable def arctan2 : Fn := binary fun y x => Complex.arg ⟨x, y⟩

/-- `cosd`, ufunc.py:240. -/
noncomputable def cosd : Option Fn := chain [unary Real.cos, deg2rad]
/-- `sind`, ufunc.py:241. -/
noncomputable def sind : Option Fn := chain [unary Real.sin, deg2rad]
/-- `tand`, ufunc.py:242. -/
noncomputable def tand : Option Fn := chain [unary Real.tan, deg2rad]
/-- `arccosd`, ufunc.py:252. -/
noncomputable def arccosd : Option Fn := chain [rad2deg, unary Real.arccos]
/-- `arcsind`, ufunc.py:253. -/
noncomputable def arcsind : Option Fn := chain [rad2deg, unary Real.arcsin]
/-- `arctand`, ufunc.py:254. -/
noncomputable def arctand : Option Fn := chain [rad2deg, unary Real.arctan]
/-- `arctand2`, ufunc.py:258. -/
noncomputable def arctand2 : Option Fn := chain [rad2deg, arctan2]

/-- `minimum`, `maximum`, ufunc.py:261-262. -/
noncomputable def minimum : Fn := binary min
@[inherit_doc minimum] noncomputable def maximum : Fn := binary max

/-- numpy's `clip(x, lo, hi)`, ufunc.py:282. -/
noncomputable def clip : Fn
  | [x, lo, hi] => some (min (max x lo) hi)
  | _ => none

/-- `vprod`, ufunc.py:264-269. -/
noncomputable def vprod : Fn
  | [] => some 1
  | a :: l => some (l.foldl (fun ans arg => ans * arg) a)

/-- `vsum`, ufunc.py:272-279. -/
noncomputable def vsum : Fn
  | [] => some 0
  | a :: l => some (l.foldl (fun ans arg => ans + arg) a)

/-- What a caller may pass: a number, a variable, anything else (an array, a text, a dataset). -/
inductive Arg where
  | number (c : ℝ)
  | var (x : Var ℝ)
  | other

/-- What a call gives: a variable, or Python's `NotImplemented`. -/
inductive Result where
  | var (y : Var ℝ)
  | notImplemented

/-- The operand an argument is, if it is one. -/
def Arg.operand? : Arg → Option (Operand ℝ)
  | .number c => some (.scalar c)
  | .var x => some (operand x)
  | .other => none

/-- `UfuncVar(*args)` with the function `f`, ufunc.py:15-107: anything but numbers and variables
gives `NotImplemented` (lines 18-21); the function is tried on ones to find the type of its values
(lines 42-44), so that it must accept that many arguments; then the axes are combined and the
function is applied element by element.  Left out: the names and the types. -/
noncomputable def makeUfunc (f : Fn) (nr : List ℚ → ℚ) (junk : List ℕ → ℝ) (args : List Arg) :
    Option Result :=
  match args.mapM Arg.operand? with
  | none => some .notImplemented
  | some ops =>
    if (f (ops.map fun _ => 1)).isSome then
      (ufuncVar (fun l => (f l).getD 0) nr junk junk ops).map .var
    else none

/-- `map(var, func, *args, **kwargs)`, ufunc.py:111-147.  Keywords are passed to the class, whose
`__new__` and `__init__` take none (lines 15 and 24): the call raises TypeError. -/
noncomputable def mapVar (f : Fn) (nr : List ℚ → ℚ) (junk : List ℕ → ℝ) (x : Var ℝ)
    (args : List Arg) (keywords : List String) : Option Result :=
  if keywords = [] then makeUfunc f nr junk (.var x :: args) else none

end Functions
end PyGeode
