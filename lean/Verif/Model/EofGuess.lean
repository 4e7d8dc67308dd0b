/-
Model of the one-pass estimate of EOFs: /repo/pygeode/eof.c:65-165 (matrices), 177-226 (workspace), 235-394 (merging two pieces), 398-425
(the stack), 429-486 (new data), 491-535 (the end), and of the calls in `EOF_guess`, /repo/pygeode/eof.py:303-338.

Arrays are flat, as in C: functions of the offset; where the code moves pointers, the offset is written out (as in the lines the code has
commented out). Numbers are exact, `int`s are unbounded, and nothing is done with memory: freed arrays are only forgotten. LAPACK's `dsyev` is a parameter. The
branch for later passes (eof.c:315-350) is not modelled: `EOF_guess` makes one pass, `target` stays NULL.
-/
import Verif.Model.Svd

namespace PyGeode
namespace EofGuess
open Svd (cfor assign chunk)

/-- `dot`, eof.c:65-80 -/
def dot (ni nj nk : ℕ) (X Y Z : ℕ → ℝ) : ℕ → ℝ :=
  cfor ni (fun i Z => cfor nk (fun k Z => assign Z (k * ni + i) (cfor nj (fun j s => s + X (i * nj + j) * Y (k * nj + j)) 0)) Z) Z

/-- `transform`, eof.c:83-104 -/
def transform (nx M N : ℕ) (X A Y : ℕ → ℝ) : ℕ → ℝ :=
  cfor nx (fun x Y => cfor N (fun j Y => assign Y (j * nx + x) (cfor M (fun i s => s + X (i * nx + x) * A (j * M + i)) 0)) Y) Y

/-- `scale` of the part of an array from offset `o` on, eof.c:107-109 -/
def scale (N : ℕ) (X : ℕ → ℝ) (o : ℕ) (k : ℝ) : ℕ → ℝ := cfor N (fun i X => assign X (o + i) (X (o + i) * k)) X

/-- `diagscale`, eof.c:112-114 -/
def diagscale (nx N : ℕ) (A d : ℕ → ℝ) : ℕ → ℝ := cfor N (fun i A => scale nx A (i * nx) (d i)) A

/-- `diagunscale`, eof.c:117-121 -/
noncomputable def diagunscale (nx N : ℕ) (A d : ℕ → ℝ) : ℕ → ℝ :=
  cfor N (fun i A => if d i ≠ 0 then scale nx A (i * nx) (1 / d i) else A) A

/-- `memcpy (dst + o, src + p, n*sizeof(double))` -/
def memcpy (dst : ℕ → ℝ) (o : ℕ) (src : ℕ → ℝ) (p n : ℕ) : ℕ → ℝ := cfor n (fun i dst => assign dst (o + i) (src (p + i))) dst

/-- `dsyev_pyg`, eof.c:15-38: eigenvectors as rows, and eigenvalues, from smallest to largest -/
abbrev Dsyev := ℕ → (ℕ → ℝ) → (ℕ → ℝ) × (ℕ → ℝ)

/-- `svd`, eof.c:146-165, with as many singular values as there are columns (`m = N` in both calls): `U`, `eig`, `V` -/
noncomputable def svd (lapack : Dsyev) (nx N : ℕ) (A : ℕ → ℝ) : (ℕ → ℝ) × (ℕ → ℝ) × (ℕ → ℝ) :=
  let C := dot N nx N A A fun _ => 0                                                                             -- line 151
  let e := lapack N C                                                                                            -- line 153
  let V := cfor N (fun i V => memcpy V (i * N) e.1 ((N - 1 - i) * N) N) fun _ => 0                               -- line 156
  let eig := cfor N (fun i eig => assign eig i (Real.sqrt (e.2 (N - 1 - i)))) fun _ => 0                         -- line 157
  let U := transform nx N N A V fun _ => 0                                                                       -- line 160
  (diagunscale nx N U eig, eig, V)                                                                               -- line 163

/-- one level of the stack, eof.c:184-187 -/
structure Piece where
  eof : ℕ → ℝ
  eig : ℕ → ℝ
  nt : ℕ
  pc : ℕ → ℝ

/-- the computation of `merge_eof`, eof.c:258-312 -/
noncomputable def merge (lapack : Dsyev) (N nx : ℕ) (p1 p2 : Piece) : Piece :=
  let N2 := N * 2
  let nt := p1.nt + p2.nt
  let E := memcpy (memcpy (fun _ => 0) 0 p1.eof 0 (N * nx)) (N * nx) p2.eof 0 (N * nx)                            -- lines 267-268
  let E := cfor N (fun i E => scale nx (scale nx E (i * nx) (p1.eig i)) ((i + N) * nx) (p2.eig i)) E              -- lines 271-274
  let r := svd lapack nx N2 E                                                                                    -- line 281
  let pc1 := diagscale p1.nt N p1.pc p1.eig                                                                      -- line 288
  let new1 := transform p1.nt N N2 pc1 (dot N nx N2 p1.eof r.1 fun _ => 0) fun _ => 0                             -- lines 289-290
  let pc2 := diagscale p2.nt N p2.pc p2.eig                                                                      -- line 292
  let new2 := transform p2.nt N N2 pc2 (dot N nx N2 p2.eof r.1 fun _ => 0) fun _ => 0                             -- lines 293-294
  let Epc := cfor N2 (fun i E => memcpy (memcpy E (i * nt) new1 (i * p1.nt) p1.nt) (i * nt + p1.nt) new2 (i * p2.nt) p2.nt)
    fun _ => 0                                                                                                   -- lines 296-299
  let Epc := diagunscale nt N2 Epc r.2.1                                                                         -- line 301
  { eof := memcpy (fun _ => 0) 0 r.1 0 (N * nx)                                                                  -- line 308
    eig := memcpy (fun _ => 0) 0 r.2.1 0 N                                                                       -- line 309
    nt := nt
    pc := memcpy (fun _ => 0) 0 Epc 0 (N * nt) }                                                                 -- line 310

/-- the stack, its top first, and the number of pieces so far -/
structure Work where
  stack : List Piece
  count : ℕ

/-- `merge_eof` on the stack, eof.c:242-253 and 376-391; `none`: an assertion fails -/
noncomputable def mergeTop (lapack : Dsyev) (N nx : ℕ) : List Piece → Option (List Piece)
  | p2 :: p1 :: rest => if 0 < p1.nt ∧ 0 < p2.nt then some (merge lapack N nx p1 p2 :: rest) else none           -- lines 247, 253
  | _ => none                                                                                                    -- line 242

/-- `while (c & 1) { merge_eof (work); c >>= 1; }`, eof.c:414-417 -/
noncomputable def mergeWhile (lapack : Dsyev) (N nx : ℕ) (c : ℕ) (stack : List Piece) : Option (List Piece) :=
  if h : c % 2 = 1 then (mergeTop lapack N nx stack).bind (mergeWhile lapack N nx (c / 2)) else some stack
termination_by c
decreasing_by omega

/-- `add_to_stack`, eof.c:398-425; `none`: the stack is full (line 406) -/
noncomputable def addToStack (lapack : Dsyev) (N nx : ℕ) (w : Work) (p : Piece) : Option Work :=
  if w.stack.length < 100 then (mergeWhile lapack N nx w.count (p :: w.stack)).map fun s => ⟨s, w.count + 1⟩ else none

/-- one round of the loop of `process`, eof.c:436-483: at most `N` records, padded with zeros -/
noncomputable def piece (lapack : Dsyev) (N nx NREC : ℕ) (data : ℕ → ℝ) (offset : ℕ) : Piece :=
  let n := if offset + N ≤ NREC then N else NREC - offset                                                        -- line 437
  let d := fun i => if i < n * nx then data (offset * nx + i) else 0                                             -- lines 439-446
  let r := svd lapack nx N d                                                                                     -- line 454
  { eof := r.1, eig := r.2.1, nt := n
    pc := cfor N (fun i pc => memcpy pc (i * n) r.2.2 (i * N) n) fun _ => 0 }                                    -- line 455

/-- `process`, eof.c:429-486 -/
noncomputable def process (lapack : Dsyev) (N nx : ℕ) (w : Work) (NREC : ℕ) (data : ℕ → ℝ) : Option Work :=
  (List.range ((NREC + N - 1) / N)).foldlM (fun w i => addToStack lapack N nx w (piece lapack N nx NREC data (i * N))) w

/-- `while (work->stacksize > 1) merge_eof (work)`, eof.c:501 -/
noncomputable def mergeAll (lapack : Dsyev) (N nx : ℕ) : Piece → List Piece → Option Piece
  | p, [] => some p
  | p2, p1 :: rest => if 0 < p1.nt ∧ 0 < p2.nt then mergeAll lapack N nx (merge lapack N nx p1 p2) rest else none

/-- `endloop`, eof.c:491-535: patterns, eigenvalues, number of records and series -/
noncomputable def endloop (lapack : Dsyev) (N nx : ℕ) : List Piece → Option Piece
  | [] => none                                                                                                   -- line 500
  | p :: rest => (mergeAll lapack N nx p rest).bind fun p =>
    if 0 < p.nt then                                                                                             -- line 508
      let signs := cfor N (fun i s => if s.1 (i * nx) < 0 then                                                   -- lines 516-521
          (cfor nx (fun x a => assign a (i * nx + x) (a (i * nx + x) * -1)) s.1,
           cfor p.nt (fun t a => assign a (i * p.nt + t) (a (i * p.nt + t) * -1)) s.2) else s) (p.eof, p.pc)     -- lines 511-513
      some { p with eof := signs.1, pc := signs.2 }
    else none

/-- the calls of `EOF_guess`, eof.py:315-338, for the chunks `(first record, number of records)` of the data -/
noncomputable def guess (lapack : Dsyev) (N nx : ℕ) (d : ℕ → ℕ → ℝ) (parts : List (ℕ × ℕ)) : Option Piece :=
  (parts.foldlM (fun w p => process lapack N nx w p.2 (chunk d nx p.1)) ⟨[], 0⟩).bind fun w => endloop lapack N nx w.stack

end EofGuess
end PyGeode
