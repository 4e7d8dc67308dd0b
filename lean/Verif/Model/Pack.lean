/-
Model of packing into 16-bit integers, /repo/pygeode/formats/__init__.py:25-53 (`PackVar`). Exact arithmetic; `none` is NaN.
What numpy makes of NaN when it converts to an integer is not defined: it is the parameter `bad`.
-/
import Verif.Model.Loop
import Verif.Model.ToolsC
import Mathlib.Data.Rat.Floor
import Mathlib.Algebra.Order.Floor.Ring

namespace PyGeode
namespace Pack
open NArr Combine VarOps Loop

/-- what an `int16` keeps of an integer (`astype(np.int16)`, two's complement) -/
def wrap16 (n : ℤ) : ℤ := (n + 32768) % 65536 - 32768

/-- the number `var.nanmin()` / `var.nanmax()` without arguments: `ReducedVar.__new__`, reduce.py:19-25: a variable without
axes is returned as it is (`var.get()`), otherwise the reduced variable is read whole (`new.get()`) -/
def scalar (nr : List ℚ → ℚ) (junk : List ℕ → Option ℚ) (x : Var (Option ℚ)) (reduce : Option (Var (Option ℚ))) : Option (Option ℚ) := do
  let y ← if x.axes = [] then some x else reduce
  let r ← y.read nr junk y.whole
  some (r.get [])

/-- one cell of `PackVar.getview`, formats/__init__.py:50: `((v - offset) / scale).astype(int16)`; with a NaN operand, or 0 / 0,
the quotient is NaN. -/
def packCell (bad : ℤ) (scale offset v : Option ℚ) : ℤ :=
  match scale, offset, v with
  | some s, some o, some v => if s = 0 then bad else wrap16 (ToolsC.truncToInt ((v - o) / s))
  | _, _, _ => bad

/-- `PackVar(var)`, formats/__init__.py:27-51: the packed variable, its `scale_factor` and its `add_offset`. The other attributes are
those of `var`. -/
def packVar (nr : List ℚ → ℚ) (junk : List ℕ → Option ℚ) (limit : ℕ) (bad : ℤ) (x : Var (Option ℚ)) :
    Option (Var (Option ℚ) × Option ℚ × Option ℚ) := do
  let lo ← scalar nr junk x (nanmin nr junk limit x [])                                     -- line 37
  let hi ← scalar nr junk x (nanmax nr junk limit x [])                                     -- line 38
  let scale := lo.bind fun lo => hi.map fun hi => (hi - lo) / (2 ^ 16 - 2)                  -- line 39
  let offset := lo.bind fun lo => hi.map fun hi => 1 / 2 * (lo + hi)                        -- line 40
  some (Var.ofView junk x.axes fun v => (x.read nr junk v).map fun r =>
    r.map fun c => some (packCell bad scale offset c : ℚ), scale, offset)

end Pack
end PyGeode
