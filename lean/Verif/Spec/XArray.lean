/-
Specification of chunked arrays, for C114.
-/
import Verif.Model.XArray

namespace PyGeode.Spec
open PyGeode NArr XArray
variable {α : Type}

/-- Position `p` of an axis cut into pieces of these lengths is position `r` of piece number `i`. -/
def InPiece (sizes : List ℕ) (p i r : ℕ) : Prop := i < sizes.length ∧ r < sizes.getD i 0 ∧ p = (sizes.take i).sum + r

/-- A chunked array of shape `lens` that holds `data`, in pieces of at most `limit` values: the pieces of an axis add up to
its length; there is exactly one piece for every combination of one piece of each axis, of the size announced; and
position `k` shows `data k`. -/
structure IsChunked (limit : ℕ) (lens : List ℕ) (data : List ℕ → α) (d : Dask α) : Prop where
  sums : d.chunks.map List.sum = lens
  keys : ∀ key, (∃ c, d.graph key = some c) ↔ InBounds (d.chunks.map List.length) key
  sizes : ∀ key c, d.graph key = some c → c.shape = List.zipWith (fun (s : List ℕ) (i : ℕ) => s.getD i 0) d.chunks key
  small : ∀ key c, d.graph key = some c → 0 < c.shape.prod ∧ c.shape.prod ≤ limit
  value : ∀ k key rs, k.length = lens.length → key.length = lens.length → rs.length = lens.length →
    (∀ a < lens.length, InPiece (d.chunks.getD a []) (k.getD a 0) (key.getD a 0) (rs.getD a 0)) →
    ∃ c, d.graph key = some c ∧ c.get rs = data k

/-- What xarray is given holds `data` on axes of these lengths. -/
def IsStored (limit : ℕ) (lens : List ℕ) (data : List ℕ → α) : Stored α → Prop
  | .memory a => a.shape = lens ∧ ∀ k, InBounds lens k → a.get k = data k
  | .chunked d => IsChunked limit lens data d

end PyGeode.Spec
