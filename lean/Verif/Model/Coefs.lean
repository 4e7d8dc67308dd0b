/-
Model of the tables of coefficients: `merge_coefs`, `SplitCoefs`, `split_coefs` of /repo/pygeode/tools.py:525-567 and of the keywords `A`
and `B` of `from_trend`, /repo/pygeode/climat.py:502-511. The names of the variables and the kinds of numbers are not modelled.
-/
import Verif.Model.TimeMatch
import Verif.Model.Concat

namespace PyGeode
namespace Coefs
open Axis Combine VarOps
variable {α : Type}

/-- `Coef(n)`, axis.py:1223-1231 -/
def coefAxis (nr : List ℚ → ℚ) (n : ℕ) : Axis :=
  { classes := ["Coef".toList, "Index".toList, "Axis".toList], aliases := ["coef".toList, "index".toList, "axis".toList, []]
    name := "coef".toList, values := (List.range n).map fun i : ℕ => (i : ℚ), isFloat := false
    rtol := nr ((List.range n).map fun i : ℕ => (i : ℚ)), auxatts := [], auxarrays := [] }

/-- `merge_coefs.getview`, tools.py:538-544: the coefficients asked for, side by side along the last axis -/
def mergeView (nr : List ℚ → ℚ) (junk : List ℕ → α) (coefs : List (Var α)) (v : View Axis) : Option (NArr α) :=
  ((v.inds.getLastD []).mapM fun ci => (coefs[ci]?).bind fun c => TimeMatch.read nr junk c v).bind      -- lines 540-542
    (Concat.concatenate junk (v.axes.length - 1))                                                      -- line 543

/-- `merge_coefs(c1, c2, ...)`, tools.py:529-537; `none`: no coefficients, or their shapes differ (line 532) -/
def mergeCoefs (nr : List ℚ → ℚ) (junk : List ℕ → α) : List (Var α) → Option (Var α)
  | [] => none
  | c :: cs =>
    if cs.all fun d => decide (d.axes.map Axis.len = c.axes.map Axis.len) then
      some (Var.ofView junk (c.axes ++ [coefAxis nr (cs.length + 1)]) (mergeView nr junk (c :: cs)))
    else none

/-- `SplitCoefs.getview`, tools.py:560-563 -/
def splitView (nr : List ℚ → ℚ) (junk : List ℕ → α) (x : Var α) (caxis : Axis) (c : ℕ) (v : View Axis) : Option (NArr α) :=
  (TimeMatch.read nr junk x ⟨caxis :: v.axes, [c] :: v.inds⟩).map fun d => d.reshape v.shape

/-- `split_coefs(coef)`, tools.py:549-567; `none`: there is no axis of coefficients -/
def splitCoefs (nr : List ℚ → ℚ) (junk : List ℕ → α) (x : Var α) : Option (List (Var α)) :=
  (foundAt (whichaxis x.axes (.cls "Coef".toList))).bind fun ci => (x.axes[ci]?).map fun caxis =>       -- lines 554-555
    (List.range caxis.len).map fun c => Var.ofView junk (x.axes.eraseIdx ci) (splitView nr junk x caxis c)   -- lines 556-558, 567

/-- `from_trend(taxis, A=A, B=B)`, climat.py:502-511: the coefficients are `merge_coefs(B, A)` -/
def fromTrendAB (nr : List ℚ → ℚ) (junk : List ℕ → ℚ) (taxis : Axis) (secs : List ℚ) (A B : Var ℚ) : Option (Var ℚ) :=
  (mergeCoefs nr junk [B, A]).bind (TimeMatch.fromTrend nr junk taxis secs)

end Coefs
end PyGeode
