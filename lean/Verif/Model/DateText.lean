/-
Model of dates as texts: `CalendarTime.str_as_date`, `str_as_val` and `formatvalue`, /repo/pygeode/timeaxis.py:470-658, with the patterns of
/repo/pygeode/pygrc:62-65, on a small model of Python's `re` (backtracking, first match in order of preference) and of
`string.Template.substitute`. `\d`, `\s` and `str.lower` are ASCII.
-/
import Verif.Model.Cf

namespace PyGeode
namespace DateText
open Calendar Cf

/-! ### regular expressions -/

/-- the parts of regular expressions that the patterns use; `chars p min max` is a character class with a repetition -/
inductive Re where
  | chars (p : Char → Bool) (min : ℕ) (max : Option ℕ)
  | lit (c : Char)
  | seq (a b : Re)
  | alt (a b : Re)
  | opt (a : Re)
  | group (n : Name) (a : Re)
  | bol
  | eol

/-- what is left to match, and the groups found, the last first -/
abbrev State := List Char × List (Name × Name)

/-- all ways to match, in the order in which `re` tries them; `n` is the length of the whole text -/
def run (n : ℕ) : Re → State → List State
  | .chars p mn mx, st =>
    let k := (st.1.takeWhile p).length
    let hi := (mx.map fun m => min m k).getD k
    ((List.range (hi + 1)).reverse.filter fun j => decide (mn ≤ j)).map fun j => (st.1.drop j, st.2)
  | .lit c, st => if st.1.head? = some c then [(st.1.tail, st.2)] else []
  | .seq a b, st => (run n a st).flatMap (run n b)
  | .alt a b, st => run n a st ++ run n b st
  | .opt a, st => run n a st ++ [st]
  | .group g a, st => (run n a st).map fun st' => (st'.1, (g, st.1.take (st.1.length - st'.1.length)) :: st'.2)
  | .bol, st => if st.1.length = n then [st] else []
  | .eol, st => if st.1 = [] ∨ st.1 = ['\n'] then [st] else []

/-- `re.search(patt, s)`: the groups of the first match, at the first place where there is one -/
def search (r : Re) (s : Name) : Option (List (Name × Name)) := ((s.tails.flatMap fun t => run s.length r (t, [])).head?).map Prod.snd

/-! ### the patterns of pygrc -/

/-- `(?P<name>\d{mn,mx})` -/
def num (name : String) (mn : ℕ) (mx : Option ℕ) : Re := .group name.toList (.chars Char.isDigit mn mx)

/-- `^((?P<hour>\d{1,2}):(?P<minute>\d{2})(\s|:(?P<second>\d{2}))|^)(?P<day>\d{1,2}) (?P<month>[a-zA-Z]+) (?P<year>\d+)$`, pygrc:63 -/
def pattern1 : Re :=
  .seq .bol <| .seq (.alt
      (.seq (num "hour" 1 (some 2)) <| .seq (.lit ':') <| .seq (num "minute" 2 (some 2)) <|
        .alt (.chars isSpace 1 (some 1)) (.seq (.lit ':') (num "second" 2 (some 2))))
      .bol) <|
    .seq (num "day" 1 (some 2)) <| .seq (.lit ' ') <| .seq (.group "month".toList (.chars isAlpha 1 none)) <| .seq (.lit ' ') <|
    .seq (num "year" 1 none) .eol

/-- `(T(?P<hour>\d{2}):(?P<minute>\d{2})(:(?P<second>\d{2}))?)?` -/
def isoTime : Re :=
  .opt <| .seq (.lit 'T') <| .seq (num "hour" 2 (some 2)) <| .seq (.lit ':') <| .seq (num "minute" 2 (some 2)) <|
    .opt <| .seq (.lit ':') (num "second" 2 (some 2))

/-- `^(?P<year>\d+)(-(?P<month>\d{2})(-(?P<day>\d{2})(T(?P<hour>\d{2}):(?P<minute>\d{2})(:(?P<second>\d{2}))?)?)?)?$`, pygrc:64 -/
def pattern2 : Re :=
  .seq .bol <| .seq (num "year" 1 none) <|
    .seq (.opt <| .seq (.lit '-') <| .seq (num "month" 2 (some 2)) <|
      .opt <| .seq (.lit '-') <| .seq (num "day" 2 (some 2)) isoTime) .eol

/-- `^(?P<year>\d+)(-(?P<day>\d{3})(T(?P<hour>\d{2}):(?P<minute>\d{2})(:(?P<second>\d{2}))?)?)?$`, pygrc:65 -/
def pattern3 : Re :=
  .seq .bol <| .seq (num "year" 1 none) <| .seq (.opt <| .seq (.lit '-') <| .seq (num "day" 3 (some 3)) isoTime) .eol

/-- `CalendarTime.parse_patterns` as configured, pygrc:62-65 -/
def patterns : List Re := [pattern1, pattern2, pattern3]

/-! ### str_as_date -/

/-- `months`, timeaxis.py:16 -/
def months : List Name :=
  ["Smarch", "Jan", "Feb", "Mar", "Apr", "May", "Jun", "Jul", "Aug", "Sep", "Oct", "Nov", "Dec"].map String.toList

/-- `months_full`, timeaxis.py:18 -/
def monthsFull : List Name :=
  ["Smarch", "January", "February", "March", "April", "May", "June", "July", "August", "September", "October", "November",
    "December"].map String.toList

/-- `int(v)` of a text of letters or digits; `none` is a ValueError -/
def int? (v : Name) : Option ℤ := if v ≠ [] ∧ v.all Char.isDigit = true then some (Nat.ofDigitChars 10 v 0 : ℕ) else none

/-- timeaxis.py:652-657 -/
def month? (v : Name) : Option ℤ :=
  if lower v ∈ months.map lower then some ((months.map lower).idxOf (lower v) : ℕ) else int? v

/-- a group that did not take part in the match is left out, timeaxis.py:650-652; the outer `none` is a ValueError -/
def field? (conv : Name → Option ℤ) (d : List (Name × Name)) (k : String) : Option (Option ℤ) :=
  match d.lookup k.toList with
  | none => some none
  | some v => (conv v).map some

/-- timeaxis.py:645-658 -/
def dateOf (d : List (Name × Name)) : Option DateDict := do
  let y ← field? int? d "year"
  let mo ← field? month? d "month"
  let da ← field? int? d "day"
  let h ← field? int? d "hour"
  let mi ← field? int? d "minute"
  let s ← field? int? d "second"
  some ⟨y, mo, da, h, mi, s⟩

/-- `str_as_date(key, s)`, timeaxis.py:640-658; `none` is a ValueError -/
def strAsDate (s : Name) : Option DateDict := ((patterns.filterMap fun r => search r s).head?).bind dateOf

/-- `str_as_val(key, s)`, timeaxis.py:612 -/
def strAsVal (c : Cal) (startdate : DateDict) (u : Units) (s : Name) : Option ℚ :=
  (strAsDate s).bind fun d => dateAsValPy c startdate d u

/-! ### formatvalue -/

/-- `[_a-z]` without regard to case -/
def isIdStart (c : Char) : Bool := isAlpha c || decide (c = '_')

/-- `[_a-z0-9]` without regard to case -/
def isId (c : Char) : Bool := isIdStart c || c.isDigit

/-- `Template(fmt).substitute(subs)`; `none` is a KeyError or ValueError. `fuel` is at least the length. -/
def substAux (subs : Name → Option Name) : ℕ → Name → Option Name
  | 0, _ => some []
  | _ + 1, [] => some []
  | f + 1, c :: s =>
    if c ≠ '$' then (substAux subs f s).map (c :: ·)
    else match s with
      | [] => none
      | x :: r =>
        if x = '$' then (substAux subs f r).map ('$' :: ·)
        else if isIdStart x then
          (subs ((x :: r).takeWhile isId)).bind fun v => (substAux subs f ((x :: r).dropWhile isId)).map (v ++ ·)
        else if x = '{' ∧ (r.head?.map isIdStart) = some true ∧ (r.dropWhile isId).head? = some '}' then
          (subs (r.takeWhile isId)).bind fun v => (substAux subs f ((r.dropWhile isId).tail)).map (v ++ ·)
        else none

/-- `Template(fmt).substitute(subs)` -/
def substitute (subs : Name → Option Name) (fmt : Name) : Option Name := substAux subs fmt.length fmt

/-- the substitutions for a date with all its fields, timeaxis.py:525-575. `$j`, `$v` and `$V` are left out. Month names: `months[mi]`. -/
def subs (d : Date) (k : Name) : Option Name :=
  if k = ['y'] then some (fmtInt 2 (d.year % 100))
  else if k = ['a'] then some (fmtInt 0 d.year)
  else if k = ['Y'] then some (if |d.year| < 100 then 'y' :: fmtInt 0 d.year else fmtInt 0 d.year)
  else if k = ['b'] then months[d.month.toNat]?
  else if k = ['B'] then monthsFull[d.month.toNat]?
  else if k = ['m'] then some (fmtInt 0 d.month)
  else if k = ['d'] then some (fmtInt 0 d.day)
  else if k = ['D'] then some (fmtInt 2 d.day)
  else if k = ['H'] then some (fmtInt 2 d.hour)
  else if k = ['I'] then some (fmtInt 2 ((d.hour - 1) % 12 + 1))
  else if k = ['p'] then some (if d.hour < 12 then "am".toList else "pm".toList)
  else if k = ['P'] then some (if d.hour < 12 then "AM".toList else "PM".toList)
  else if k = ['M'] then some (fmtInt 2 d.minute)
  else if k = ['S'] then some (fmtInt 2 d.second)
  else none

/-- `formatvalue(value, fmt)`, timeaxis.py:520-583, on an axis whose start date has all its fields -/
def formatvalue (c : Cal) (start : Date) (u : Units) (value : ℚ) (fmt : Name) : Option Name :=
  (valAsDatePy c (full start) value u false).bind fun dt => substitute (subs (getDates dt)) fmt

end DateText
end PyGeode
