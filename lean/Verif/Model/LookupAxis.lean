/-
Model of the register of axes, `AxisManager.lookup_axis` with `_settify_axis` (/repo/pygeode/formats/data_scanner.py:184-289), as the
programs that use it see it: a heap of axis objects with identities, where Python may give the identity of an object that nothing
refers to any more to a new one.

What an axis contains (`A`), its hash (line 226: a function of name, class and values) and comparison (`__eq__`) are parameters.
-/
namespace PyGeode
namespace LookupAxis

variable {A H S : Type}

/-- an object: its identity and what it contains -/
structure Obj (A : Type) where
  id : Nat
  content : A

/-- the register, lines 196-202 -/
structure Manager (A H S : Type) where
  /-- `_hash_bins` -/
  bins : H → List (Obj A) := fun _ => []
  /-- `_id_lookup` -/
  byId : Nat → Option (Obj A) := fun _ => none
  /-- `_all_axes` -/
  all : List (Obj A) := []
  /-- `_settified_axes` -/
  settified : Nat → Option S := fun _ => none

/-- Python's `list.index(x)`: the first element that is `x` or is equal to it, line 231 -/
def find (eqv : A → A → Bool) (bin : List (Obj A)) (o : Obj A) : Option (Obj A) :=
  bin.find? fun p => p.id == o.id || eqv p.content o.content

/-- `lookup_axis(axis)`, lines 212-237 -/
def lookup [DecidableEq H] (hash : A → H) (eqv : A → A → Bool) (M : Manager A H S) (o : Obj A) : Obj A × Manager A H S :=
  match M.byId o.id with
  | some r => (r, M)                                                                  -- lines 219-221
  | none =>
    let all := M.all ++ [o]                                                           -- line 223
    let bin := M.bins (hash o.content)                                                -- lines 224-228
    match find eqv bin o with
    | some r =>                                                                       -- line 231
      (r, { M with all, byId := fun i => if i = o.id then some r else M.byId i })     -- line 235
    | none =>                                                                         -- line 233
      (o, { M with all, bins := fun h => if h = hash o.content then bin ++ [o] else M.bins h,
                        byId := fun i => if i = o.id then some o else M.byId i })

/-- `_settify_axis(axis)`, lines 261-289, where `toSet` is what lines 267-284 make of an axis -/
def settify [DecidableEq H] (hash : A → H) (eqv : A → A → Bool) (toSet : A → S) (M : Manager A H S) (o : Obj A) : S × Manager A H S :=
  let r := lookup hash eqv M o                                                        -- line 263
  match r.2.settified r.1.id with
  | some s => (s, r.2)                                                                -- lines 265-266
  | none =>
    let s := toSet r.1.content
    (s, { r.2 with settified := fun i => if i = r.1.id then some s else r.2.settified i })   -- line 285

/-- What can happen: an object is made, an object is forgotten by the program, the program looks up an axis, or asks for its set. -/
inductive Event (A : Type)
  | new (id : Nat) (content : A)
  | drop (id : Nat)
  | lookup (id : Nat)
  | settify (id : Nat)

/-- The program and the register: the objects in memory, the register, and all answers given so far. -/
structure World (A H S : Type) where
  heap : Nat → Option A := fun _ => none
  manager : Manager A H S := {}
  answers : List (Obj A × Obj A) := []
  sets : List (Obj A × S) := []

/-- One event. Python's memory: a new object gets an identity that is not in use, and an object goes away only when nothing refers to
it, neither the program nor the register (every object the register refers to has been put into `_all_axes`). -/
def step [DecidableEq H] (hash : A → H) (eqv : A → A → Bool) (toSet : A → S) (w : World A H S) : Event A → World A H S
  | .new i c => match w.heap i with
    | some _ => w
    | none => { w with heap := fun j => if j = i then some c else w.heap j }
  | .drop i =>
    match w.manager.all.find? (fun o => o.id == i) with
    | some _ => w
    | none => { w with heap := fun j => if j = i then none else w.heap j }
  | .lookup i => match w.heap i with
    | none => w
    | some c =>
      let r := lookup hash eqv w.manager ⟨i, c⟩
      { w with manager := r.2, answers := w.answers ++ [(⟨i, c⟩, r.1)] }
  | .settify i => match w.heap i with
    | none => w
    | some c =>
      let r := settify hash eqv toSet w.manager ⟨i, c⟩
      { w with manager := r.2, sets := w.sets ++ [(⟨i, c⟩, r.1)] }

/-- a history, from the empty register -/
def run [DecidableEq H] (hash : A → H) (eqv : A → A → Bool) (toSet : A → S) (events : List (Event A)) : World A H S :=
  events.foldl (step hash eqv toSet) {}

end LookupAxis
end PyGeode
