/-
Specification side of reading a view: which source cell an output cell shows, and what the three
kinds of data source promise. Nothing here mentions how pygeode goes about the reading.
-/
import Verif.Model.View

namespace PyGeode.Spec
open PyGeode NArr

variable {Ax α : Type}

/-- Source position shown at output cell `k` when positions `inds` are requested (axis by axis). -/
def cell (inds : List (List ℕ)) (k : List ℕ) : List ℕ :=
  List.zipWith (fun (l : List ℕ) (i : ℕ) => l.getD i 0) inds k

/-- Every requested position exists on its axis. -/
def InRange (lens : List ℕ) (inds : List (List ℕ)) : Prop :=
  List.Forall₂ (fun (l : List ℕ) (n : ℕ) => ∀ i ∈ l, i < n) inds lens

/-- `r` is the array of the values of `data` at the requested positions. -/
def IsRead (data : List ℕ → α) (inds : List (List ℕ)) (r : NArr α) : Prop :=
  r.shape = inds.map List.length ∧
  ∀ k, InBounds (inds.map List.length) k → r.get k = data (cell inds k)

/-- A hyper-rectangle `start, count` read of `data`. -/
def IsSlab (data : List ℕ → α) (sc : List (ℕ × ℕ)) (r : NArr α) : Prop :=
  r.shape = sc.map Prod.snd ∧
  ∀ k, InBounds (sc.map Prod.snd) k →
    r.get k = data (List.zipWith (fun (s : ℕ × ℕ) (i : ℕ) => s.1 + i) sc k)

/-- Positions in increasing order without repeats, or one position repeated; at least one. -/
def Tidy (ind : List ℕ) : Prop := ind ≠ [] ∧ (ind.Pairwise (· < ·) ∨ ∀ i ∈ ind, ∀ j ∈ ind, i = j)

/-- What a variable with axes `axes` of lengths `lens` and contents `data` promises: an in-memory
array holds the contents; `getview` answers any in-range request that is tidy (users' requests may be in any order and
with repeats); `getvalues` answers any in-range start/count request (nothing is promised about the memory of a fresh
array). -/
def Serves (data : List ℕ → α) (axes : List Ax) (lens : List ℕ) : View.Source Ax α → Prop
  | .values a => a.shape = lens ∧ ∀ k, InBounds lens k → a.get k = data k
  | .getview f => ∀ inds, InRange lens inds → (∀ ind ∈ inds, Tidy ind) → IsRead data inds (f { axes := axes, inds := inds })
  | .getvalues _ f => ∀ sc, List.Forall₂ (fun (s : ℕ × ℕ) (n : ℕ) => s.1 + s.2 ≤ n) sc lens →
      IsSlab data sc (f sc)

end PyGeode.Spec
