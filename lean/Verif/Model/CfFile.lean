/-
Model of saving a dataset to a netCDF file with its metadata and opening it again: `encode_cf` and `decode_cf`,
/repo/pygeode/formats/cfmeta.py:112-284 and 288-484, around the file of Model/NetCdf.lean (`save` and `open` of
formats/netcdf4.py:199-287 with their defaults; `finalize_save` and `finalize_open`, formats/__init__.py:259-306, then only
call these two).

The attributes of an axis are those `decode_cf` looks at; they are stored in the file under the name of the axis. Not modelled:
station and other non-coordinate axes, yearless time axes, axes from add-ons, attributes of variables (so: no fill value, scale,
offset, `coordinates`), numpy dtypes. The order of the auxiliary arrays of an axis is kept, though it means nothing.
-/
import Verif.Model.Cf
import Verif.Model.NetCdf

namespace PyGeode
namespace CfFile
open Combine Cf NetCdf Calendar

/-! ### axes -/

/-- the classes of axes that are told apart in a file, axis.py:752-1203 -/
inductive Kind
  | lat | lon | pres | hybrid | xaxis | yaxis | zaxis | taxis | named
  deriving DecidableEq

/-- the class and its bases -/
def Kind.classes : Kind → List Name
  | .lat => ["Lat".toList, "YAxis".toList, "Axis".toList]
  | .lon => ["Lon".toList, "XAxis".toList, "Axis".toList]
  | .pres => ["Pres".toList, "ZAxis".toList, "Axis".toList]
  | .hybrid => ["Hybrid".toList, "ZAxis".toList, "Axis".toList]
  | .xaxis => ["XAxis".toList, "Axis".toList]
  | .yaxis => ["YAxis".toList, "Axis".toList]
  | .zaxis => ["ZAxis".toList, "Axis".toList]
  | .taxis => ["TAxis".toList, "Axis".toList]
  | .named => ["NamedAxis".toList, "Axis".toList]

/-- the kind with that class -/
def kindOf (cls : Name) : Option Kind :=
  [Kind.lat, .lon, .pres, .hybrid, .xaxis, .yaxis, .zaxis, .taxis, .named].find? fun k => decide (k.classes.headD [] = cls)

/-- what the axis answers to, axis.py:575-586: the names of its classes, and the default names they have -/
def Kind.aliases : Kind → List Name
  | .lat => ["lat".toList, "yaxis".toList, "axis".toList, []]
  | .lon => ["lon".toList, "xaxis".toList, "axis".toList, []]
  | .pres => ["pres".toList, "lev".toList, "zaxis".toList, "axis".toList, []]
  | .hybrid => ["eta".toList, "hybrid".toList, "lev".toList, "zaxis".toList, "axis".toList, []]
  | .xaxis => ["xaxis".toList, "axis".toList, []]
  | .yaxis => ["yaxis".toList, "axis".toList, []]
  | .zaxis => ["lev".toList, "zaxis".toList, "axis".toList, []]
  | .taxis => ["taxis".toList, "axis".toList, []]
  | .named => ["namedaxis".toList, "axis".toList, []]

/-- an axis of that kind; a `NamedAxis` as in Model/NetCdf.lean -/
def mkAxis (nr : List ℚ → ℚ) (k : Kind) (n : Name) (isFloat : Bool) (vals : List ℚ) (aux : List (Name × List ℚ)) : Axis :=
  if k = .named then { NetCdf.named nr n isFloat vals with auxarrays := aux }
  else { classes := k.classes, aliases := k.aliases, name := n, values := vals, isFloat := isFloat, rtol := nr vals
         auxatts := [], auxarrays := aux }

/-- the class of a calendar, timeaxis.py:783-803 -/
def calClass : Cal → Name
  | .standard => "StandardTime".toList
  | .noleap => "ModelTime365".toList
  | .days360 => "ModelTime360".toList

/-- the fields of a date, in order -/
def dateFields : List (Name × (DateDict → Option ℤ)) :=
  [("year".toList, DateDict.year), ("month".toList, DateDict.month), ("day".toList, DateDict.day),
   ("hour".toList, DateDict.hour), ("minute".toList, DateDict.minute), ("second".toList, DateDict.second)]

/-- a start date as text: its fields with their names -/
def dateText (d : DateDict) : Name :=
  dateFields.flatMap fun f => match f.2 d with
    | some v => f.1 ++ fmtInt 0 v
    | none => []

/-- a time axis, timeaxis.py:85-129: the values are the dates relative to the start date, the fields that all dates have are
auxiliary arrays, the units and the start date auxiliary attributes -/
def timeAxis (nr : List ℚ → ℚ) (n : Name) (t : TimeAx) : Axis :=
  let vals := (t.dates.mapM fun d => dateAsValPy t.cal t.start d t.units).getD []
  { classes := [calClass t.cal, "CalendarTime".toList, "Time".toList, "TAxis".toList, "Axis".toList]
    aliases := [lower (calClass t.cal), "calendartime".toList, "time".toList, "taxis".toList, "axis".toList, []]
    name := n, values := vals, isFloat := true, rtol := nr vals
    auxatts := [("units".toList, unitName t.units), ("startdate".toList, dateText t.start)]
    auxarrays := dateFields.filterMap fun f => (t.dates.mapM f.2).map fun col => (f.1, col.map fun z : ℤ => (z : ℚ)) }

/-- an axis of a dataset, with its attributes -/
inductive CAx
  | coord (k : Kind) (n : Name) (isFloat : Bool) (vals : List ℚ) (aux : List (Name × List ℚ)) (atts : Atts)
  | time (n : Name) (t : TimeAx) (atts : Atts)
  deriving DecidableEq

def CAx.name : CAx → Name
  | .coord _ n _ _ _ _ => n
  | .time n _ _ => n

/-- the axis as the rest of the library sees it -/
def CAx.axis (nr : List ℚ → ℚ) : CAx → Axis
  | .coord k n b vals aux _ => mkAxis nr k n b vals aux
  | .time n t _ => timeAxis nr n t

/-- the auxiliary arrays that are stored: those of a time axis are made from its values -/
def CAx.aux : CAx → List (Name × List ℚ)
  | .coord _ _ _ _ aux _ => aux
  | .time _ _ _ => []

/-- a dataset: its axes with their attributes, and its variables -/
structure CData where
  axes : List CAx
  items : List Item

/-! ### encoding -/

/-- the attributes of an axis in the file -/
structure FAtts extends Atts where
  calendar : Option Name := none
  ancillary : Option Name := none
  deriving DecidableEq

/-- the axis and the attributes that are written for an axis, cfmeta.py:148-188 and 260-271; `none`: the times cannot be
computed -/
def encodeAxis (nr : List ℚ → ℚ) : CAx → Option (Axis × FAtts)
  | .coord k n b vals aux atts =>
    some (NetCdf.named nr n b vals,
      { toAtts := encodeAtts k.classes atts
        ancillary := if aux = [] then none else some (encodeAux n (aux.map Prod.fst)).2 })
  | .time n t atts => (encodeTime t).map fun f =>
    (NetCdf.named nr n true f.values,
      { toAtts := encodeAtts [calClass t.cal, "CalendarTime".toList, "Time".toList, "TAxis".toList, "Axis".toList]
          { atts with standardName := some "time".toList, units := some f.units }
        calendar := some f.calendar })

/-- `Var([a], values=values, name=auxname)`, cfmeta.py:262-265 -/
def auxItem (nr : List ℚ → ℚ) (a : CAx) (p : Name × List ℚ) : Item :=
  { name := a.name ++ ['_'] ++ p.1, isFloat := true
    var := { axes := [a.axis nr], src := .values { shape := [(a.axis nr).len], get := fun k => some (p.2.getD (k.getD 0 0) 0) } } }

/-- one auxiliary array, cfmeta.py:262-265: the name has to be free -/
def addAux (items : List Item) (x : Item) : Option (List Item) :=
  if x.name ∈ items.map Item.name then none else some (items ++ [x])

/-- `[axisdict.get(a.name, a) for a in oldvar.axes]`, cfmeta.py:278 -/
def swap (new : List Axis) (a : Axis) : Axis := (new.find? fun b => decide (b.name = a.name)).getD a

/-- `var_newaxes` for each variable, cfmeta.py:274-281 and 465-480 -/
def newAxes (nr : List ℚ → ℚ) (junk : List ℕ → Cell) (sw : Axis → Axis) (items : List Item) : Option (List Item) :=
  items.mapM fun x => (varNewaxes nr junk x.var (x.var.axes.map sw) none none none).map fun v => { x with var := v }

/-- `encode_cf(dataset)`, cfmeta.py:112-284: the variables to write, and the attributes of the axes by name -/
def encode (nr : List ℚ → ℚ) (junk : List ℕ → Cell) (d : CData) : Option (List Item × List (Name × FAtts)) :=
  (d.items.mapM fun x => (fixName x.name).map fun n => { x with name := n }).bind fun items =>
  if ∀ x ∈ items, x.name ∉ d.axes.map CAx.name then
    ((d.axes.flatMap fun a => a.aux.map (auxItem nr a)).foldlM addAux items).bind fun items =>
    (d.axes.mapM (encodeAxis nr)).bind fun enc =>
    (newAxes nr junk (swap (enc.map Prod.fst)) items).bind fun items =>
    (mkDataset nr junk items).map fun items => (items, enc.map fun p => (p.1.name, p.2))
  else none

/-! ### decoding -/

/-- is the axis read as a time axis, cfmeta.py:383 -/
def isTime (cls st units : Name) : Bool :=
  (decide (st = "time".toList) || decide (cls = "TAxis".toList) ||
    ["days since".toList, "hours since".toList, "minutes since".toList, "seconds since".toList].any fun p => decide (p <+: units)) &&
  decide (" since ".toList <:+: units)

/-- the values of a variable with one axis, `v.get()` -/
def oneDim (nr : List ℚ → ℚ) (junk : List ℕ → Cell) (items : List Item) (n : Name) : Option (List ℚ) :=
  (items.find? fun x => decide (x.name = n)).bind fun x => (readAxis nr junk x).map Axis.values

/-- the auxiliary arrays of an axis, cfmeta.py:330-342 -/
def findAux (nr : List ℚ → ℚ) (junk : List ℕ → Cell) (items : List Item) (n : Name) : Option Name → Option (List (Name × List ℚ))
  | none => some []
  | some att => (decodeAux n (items.map Item.name) att).bind fun l =>
      l.mapM fun p => (oneDim nr junk items p.2).map fun vals => (p.1, vals)

/-- the variables that are left, cfmeta.py:344-345 -/
def dropAux (items : List Item) : Option Name → List Item
  | none => items
  | some att => items.filter fun x => decide (x.name ∉ att.splitOn ' ')

/-- the class an axis was opened with: netcdf4.py:5 and 187 -/
def ownClass (a : Axis) : Name := if isDummy a then "NCDim".toList else "NamedAxis".toList

/-- `Lat` computes its weights if they are not given, axis.py:957-961; `weights` stands for the cosine -/
def withWeights (weights : List ℚ → List ℚ) (k : Kind) (vals : List ℚ) (aux : List (Name × List ℚ)) : List (Name × List ℚ) :=
  if k = .lat ∧ "weights".toList ∉ aux.map Prod.fst then ("weights".toList, weights vals) :: aux else aux

/-- a time axis is read, cfmeta.py:383-422: an unknown calendar leaves the axis as it is; `'none'` is a yearless axis, which is
not modelled here but in `Model/Yearless` (as are the other strings that are part of `'none'`: line 388 tests
`_calendar in ('none')`). A climatology is made by `modify` (line 421), which does not hand on the name (timeutils.py:81): the axis
gets the default one, `Time.name` of pygrc. -/
def readTime (nr : List ℚ → ℚ) (a : Axis) (units calendar : Name) : Option Axis :=
  if decodeCalendar calendar = none then (if calendar <:+: "none".toList then none else some a)
  else (decodeTime ⟨units, calendar, a.values⟩).map fun t =>
    timeAxis nr (if t.start.year = none then "time".toList else a.name) t

/-- `[axisdict[a.name] for a in oldvar.axes]`, cfmeta.py:477: by the name in the file -/
def swapBy (new : List (Name × Axis)) (a : Axis) : Axis := (new.lookup a.name).getD a

/-- one axis, cfmeta.py:322-459: the axes decoded so far with their names in the file, the variables that are left; `none`: an exception, or something that
is not modelled -/
def decodeStep (nr : List ℚ → ℚ) (junk : List ℕ → Cell) (weights : List ℚ → List ℚ) (fatts : List (Name × FAtts))
    (st : List (Name × Axis) × List Item) (a : Axis) : Option (List (Name × Axis) × List Item) :=
  let atts := (fatts.lookup a.name).getD {}
  (findAux nr junk st.2 a.name atts.ancillary).bind fun aux =>
  let items := dropAux st.2 atts.ancillary
  let cls := decodeClass (ownClass a) a.name atts.toAtts
    (decide ("A".toList ∈ aux.map Prod.fst) && decide ("B".toList ∈ aux.map Prod.fst))
  let st' := lower (atts.standardName.getD (lower (atts.longName.getD a.name)))
  let un := atts.units.getD []
  if isTime cls st' un then
    (readTime nr a un (atts.calendar.getD "standard".toList)).map fun b => (st.1 ++ [(a.name, b)], items)
  else
    let left := items.filter fun x => decide (x.name ∉ aux.map Prod.fst)                     -- line 451
    if cls = ownClass a then some (st.1 ++ [(a.name, a)], left)                                        -- line 458
    else (kindOf cls).map fun k =>
      (st.1 ++ [(a.name, mkAxis nr k a.name a.isFloat a.values (withWeights weights k a.values aux))], left)

/-- `decode_cf(dataset)`, cfmeta.py:288-484 -/
def decode (nr : List ℚ → ℚ) (junk : List ℕ → Cell) (weights : List ℚ → List ℚ) (items : List Item)
    (fatts : List (Name × FAtts)) : Option (List Item) :=
  ((dataAxes items).foldlM (decodeStep nr junk weights fatts) ([], items)).bind fun st =>
  (newAxes nr junk (swapBy st.1) st.2).bind (mkDataset nr junk)

/-! ### saving and opening -/

/-- `save(filename, dataset)`, netcdf4.py:266-290 -/
def saveCf (nr : List ℚ → ℚ) (junk : List ℕ → Cell) (limit : ℕ) (fill : Cell) (d : CData) : Option (NcFile × List (Name × FAtts)) :=
  (encode nr junk d).bind fun p => (NetCdf.save nr junk limit fill p.1).map fun f => (f, p.2)

/-- `open(filename)`, netcdf4.py:199-263 -/
def openCf (nr : List ℚ → ℚ) (junk : List ℕ → Cell) (weights : List ℚ → List ℚ) (f : NcFile × List (Name × FAtts)) :
    Option (List Item) :=
  (openFile nr junk f.1).bind fun items => decode nr junk weights items f.2

end CfFile
end PyGeode
