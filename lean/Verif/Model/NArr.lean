/-
The part of numpy used by the model: n-dimensional arrays as a shape and a function of the
multi-index. (Trusted description of numpy; the array contents outside the shape are junk that no
theorem looks at.)
-/
import Mathlib.Data.Nat.Notation
import Mathlib.Data.Int.Notation
import Mathlib.Data.List.Sort
import Mathlib.Data.List.GetD
import Mathlib.Data.List.Dedup

namespace PyGeode

/-- A numpy array. -/
structure NArr (α : Type) where
  shape : List ℕ
  get : List ℕ → α

namespace NArr
variable {α β : Type}

/-- `k` is a valid multi-index of an array of shape `s`. -/
def InBounds (s k : List ℕ) : Prop := List.Forall₂ (· < ·) k s

/-- row-major flat position of a multi-index -/
def ravel : List ℕ → List ℕ → ℕ
  | _ :: ns, i :: is => i * ns.prod + ravel ns is
  | _, _ => 0

/-- multi-index of a row-major flat position -/
def unravel : List ℕ → ℕ → List ℕ
  | [], _ => []
  | _ :: ns, f => f / ns.prod :: unravel ns (f % ns.prod)

/-- `a.reshape(shape)` -/
def reshape (a : NArr α) (shape : List ℕ) : NArr α :=
  { shape := shape, get := fun k => a.get (unravel a.shape (ravel shape k)) }

/-- `a.transpose(p)`: axis `i` of the result is axis `p[i]` of `a`. -/
def transpose (a : NArr α) (p : List ℕ) : NArr α :=
  { shape := p.map (fun j : ℕ => a.shape.getD j 0)
    get := fun k => a.get ((List.range p.length).map (fun j : ℕ => k.getD (p.idxOf j) 0)) }

/-- `a[(slice(None),)*i + (l,)]`: indexing one axis with a list of positions. -/
def takeAxis (a : NArr α) (i : ℕ) (l : List ℕ) : NArr α :=
  { shape := a.shape.set i l.length
    get := fun k => a.get (k.set i (l.getD (k.getD i 0) 0)) }

/-- indexing every axis independently with a list of positions (`a[np.ix_(...)]`) -/
def outer (a : NArr α) (inds : List (List ℕ)) : NArr α :=
  { shape := inds.map List.length
    get := fun k => a.get (List.zipWith (fun (l : List ℕ) (i : ℕ) => l.getD i 0) inds k) }

/-- elementwise map -/
def map (f : α → β) (a : NArr α) : NArr β := { shape := a.shape, get := fun k => f (a.get k) }

/-- `k` lies in the box given by half-open ranges -/
def inBox : List (ℕ × ℕ) → List ℕ → Bool
  | [], [] => true
  | (a, b) :: bs, i :: is => decide (a ≤ i) && decide (i < b) && inBox bs is
  | _, _ => false

/-- `a[box] = piece` -/
def setBox (a : NArr α) (box : List (ℕ × ℕ)) (piece : NArr α) : NArr α :=
  { shape := a.shape
    get := fun k => if inBox box k then piece.get (List.zipWith (fun (i : ℕ) (b : ℕ × ℕ) => i - b.1) k box)
      else a.get k }

end NArr

/-- `itertools.product(*ls)`: last factor varies fastest. -/
def product {α : Type} : List (List α) → List (List α)
  | [] => [[]]
  | l :: ls => l.flatMap fun a => (product ls).map (a :: ·)

/-- `np.unique` of positions -/
def uniq (l : List ℕ) : List ℕ := l.dedup.insertionSort (· ≤ ·)

/-- `np.searchsorted(u, x)` (left side) on a sorted array -/
def searchsorted (u : List ℕ) (x : ℕ) : ℕ := u.countP (fun y => decide (y < x))

end PyGeode
