/-
Model of the exchange of data with xarray, /repo/pygeode/ext_xarray.py: how the chunks of `loop_mem` become a dask array,
and how an array of xarray becomes a variable. The description of a dask array (`Dask`, `Dask.array`) is trusted. Left
out: the metadata (`encode_cf`, `decode_cf`, `tokenize`, attributes, xarray's own coding of dates), and that dask calls
`getview(view, False)`: a `getview` that reports its progress fails on `False`.
-/
import Verif.Model.VarOps
import Verif.Model.NetCdf

namespace PyGeode
namespace XArray
open NArr VarOps
variable {α : Type}

/-- `dask.array.Array(dsk, name, chunks)`: the lengths of the pieces of each axis, and the piece with each key -/
structure Dask (α : Type) where
  chunks : List (List ℕ)
  graph : List ℕ → Option (NArr α)

/-- where dask looks for a position of an axis: the number of the piece, and the position in it -/
def locate : List ℕ → ℕ → ℕ × ℕ
  | [], p => (0, p)
  | n :: ns, p => if p < n then (0, p) else ((locate ns (p - n)).1 + 1, (locate ns (p - n)).2)

/-- `np.asarray` of a dask array; `junk` where a piece is missing -/
def Dask.array (junk : List ℕ → α) (d : Dask α) : NArr α :=
  { shape := d.chunks.map List.sum
    get := fun k =>
      let at_ := List.zipWith locate d.chunks k
      match d.graph (at_.map Prod.fst) with
      | some c => c.get (at_.map Prod.snd)
      | none => junk k }

/-- what xarray is given: an array in memory, or a dask array -/
inductive Stored (α : Type)
  | memory (a : NArr α)
  | chunked (d : Dask α)

/-- the values of what xarray is given -/
def Stored.array (junk : List ℕ → α) : Stored α → NArr α
  | .memory a => a
  | .chunked d => d.array junk

/-- `if sl not in o: o.append(sl)`, for each axis, ext_xarray.py:52-54 -/
def note (order : List (List (List ℕ))) (inds : List (List ℕ)) : List (List (List ℕ)) :=
  List.zipWith (fun o sl => if sl ∈ o then o else o ++ [sl]) order inds

/-- one chunk of the loop, ext_xarray.py:46-58: the slices met so far on each axis, and the pieces made so far -/
def chunkStep (f : View Axis → NArr α) (st : List (List (List ℕ)) × (List ℕ → Option (NArr α))) (outview : View Axis) :
    List (List (List ℕ)) × (List ℕ → Option (NArr α)) :=
  let order := note st.1 outview.inds                                                        -- lines 47, 52-54
  let key := List.zipWith (fun (o : List (List ℕ)) (sl : List ℕ) => o.idxOf sl) order outview.inds   -- lines 55, 57
  (order, fun k => if k = key then some (f outview) else st.2 k)                             -- line 58

/-- the data of one variable in `to_xarray`, ext_xarray.py:32-61; `none`: an exception (`var.getview` is looked up on a
variable that has no such method, line 58). `limit` is `MAX_ARRAY_SIZE`. -/
def toXarray (limit : ℕ) (x : Var α) : Option (Stored α) :=
  match x.src with
  | .values a => some (.memory a)                                                            -- lines 33-35
  | .getvalues _ _ => none
  | .getview f =>
    let st := (x.whole.loopMem limit []).foldl (chunkStep f) (x.axes.map fun _ => [], fun _ => none)   -- lines 40-58
    some (.chunked { chunks := st.1.map (List.map List.length), graph := st.2 })             -- lines 60-61

/-- `XArray_DataArray(name, arr)`, ext_xarray.py:88-101: an axis that counts for every dimension, and `_arr[view.slices]`
(xarray indexes every dimension independently) -/
def fromXarray (nr : List ℚ → ℚ) (dims : List Name) (arr : NArr α) : Var α :=
  { axes := List.zipWith (fun n d => NetCdf.named nr d false (NetCdf.counting n)) arr.shape dims
    src := .getview fun v => arr.outer v.inds }

end XArray
end PyGeode
