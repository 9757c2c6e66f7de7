import Verif.Model.Value
import Mathlib.Algebra.Order.Field.Rat

/-!
# Suggestions for misspelled names: `suggestions.py`

An `Option` result of `none` is a Python exception (IndexError, ZeroDivisionError).  Floating point:
`fl` is the rounding of the result of each operation; string lengths and counts of matches are exact.
-/

namespace RE

/-- the inner loop of `jaro_distance` (suggestions.py 51-56) over the candidate positions `js`: the
first position of `str2` not yet matched that holds the character -/
def jaroFind (c : Char) (str2 : List Char) (matches2 : List Bool) : List Nat → Option (Option Nat)
  | [] => some none
  | j :: js => do
    let m ← matches2[j]?
    if m then jaroFind c str2 matches2 js
    else
      let d ← str2[j]?
      if c = d then some (some j) else jaroFind c str2 matches2 js

/-- `range(start, end)` of the inner loop (suggestions.py 49-51) -/
def jaroWindow (len2 : Nat) (distance : Int) (i : Nat) : List Nat :=
  let start := max 0 ((i : Int) - distance)
  let stop := min ((i : Int) + distance) ((len2 : Int) - 1) + 1
  List.range' start.toNat (stop - start).toNat

/-- the outer loop over `range(str1_len)` (suggestions.py 48-56): flags of matched characters of both
strings, and their number -/
def jaroMatch (str1 str2 : List Char) (distance : Int) :
    List Nat → List Bool × List Bool × Nat → Option (List Bool × List Bool × Nat)
  | [], st => some st
  | i :: is, (m1, m2, n) => do
    let c ← str1[i]?
    let r ← jaroFind c str2 m2 (jaroWindow str2.length distance i)
    match r with
    | none => jaroMatch str1 str2 distance is (m1, m2, n)
    | some j => jaroMatch str1 str2 distance is (m1.set i true, m2.set j true, n + 1)

/-- `while not str2_matches[k]: k += 1` (suggestions.py 66-67): IndexError if there is none -/
def jaroNext (m2 : List Bool) (k : Nat) : Option Nat :=
  ((m2.drop k).findIdx? id).map (k + ·)

/-- the loop that counts transpositions (suggestions.py 63-70) -/
def jaroTrans (str1 str2 : List Char) (m1 m2 : List Bool) : List Nat → Nat → Nat → Option Nat
  | [], _, t => some t
  | i :: is, k, t => do
    let b ← m1[i]?
    if !b then jaroTrans str1 str2 m1 m2 is k t
    else
      let k ← jaroNext m2 k
      let c ← str1[i]?
      let d ← str2[k]?
      jaroTrans str1 str2 m1 m2 is (k + 1) (if c ≠ d then t + 1 else t)

/-- division: ZeroDivisionError (suggestions.py 71) -/
def flDiv (fl : ℚ → ℚ) (a b : ℚ) : Option ℚ := if b = 0 then none else some (fl (a / b))

/-- `jaro_distance` (suggestions.py 36-71) -/
def jaroDistance (fl : ℚ → ℚ) (str1 str2 : List Char) : Option ℚ :=
  if str1 = str2 then some 1
  else
    let maxLen := max str1.length str2.length
    let distance : Int := (maxLen / 2 : Nat) - 1
    do
      let (m1, m2, n) ← jaroMatch str1 str2 distance (List.range' 0 str1.length)
        (List.replicate maxLen false, List.replicate maxLen false, 0)
      if n = 0 then some 0
      else
        let t ← jaroTrans str1 str2 m1 m2 (List.range' 0 str1.length) 0 0
        let a ← flDiv fl n str1.length
        let b ← flDiv fl n str2.length
        let h ← flDiv fl t 2
        let c ← flDiv fl (fl (n - h)) n
        flDiv fl (fl (fl (a + b) + c)) 3

/-- length of the common prefix, at most 5 (suggestions.py 76-78) -/
def jaroPrefix (str1 str2 : List Char) : Nat :=
  (((str1.take 5).zip (str2.take 5)).takeWhile fun p => p.1 = p.2).length

/-- `jaro_winkler_distance` with the default scale (suggestions.py 73-80) -/
def jaroWinkler (fl : ℚ → ℚ) (str1 str2 : List Char) : Option ℚ := do
  let d ← jaroDistance fl str1 str2
  if d > fl (7 / 10) then
    some (fl (d + fl (fl (fl (1 / 10) * jaroPrefix str1 str2) * fl (1 - d))))
  else some d

/-- `jaro_winkler_similarity` (suggestions.py 82-83), which is smaller for more similar strings -/
def winklerKey (fl : ℚ → ℚ) (word option : String) : Option ℚ := do
  let d ← jaroWinkler fl word.toList option.toList
  some (fl (1 - d))

/-- `_suggest` (suggestions.py 85-88): `sorted(options, key=…)[0]`, a stable sort -/
def suggest (fl : ℚ → ℚ) (word : String) (options : List String) : Option (Option String) := do
  let keyed ← options.mapM fun o => (winklerKey fl word o).map fun k => (o, k)
  some (((keyed.mergeSort fun a b => a.2 ≤ b.2).head?).map (·.1))

/-- `[a-zA-Z_]` (parser/__init__.py 235) -/
def isNameStart (c : Char) : Bool := c.isAlpha || c == '_'

/-- `[a-zA-Z0-9_]` -/
def isNameChar (c : Char) : Bool := c.isAlphanum || c == '_'

/-- the optional `\$?` of the pattern (parser/__init__.py 235) -/
def dropDollar : List Char → List Char
  | '$' :: cs => cs
  | cs => cs

/-- the rest of the pattern, up to the end: the `$` of Python's `re` also matches before a newline at
the end (parser/__init__.py 235) -/
def matchesName : List Char → Bool
  | c :: cs => isNameStart c && (cs.dropWhile isNameChar == [] || cs.dropWhile isNameChar == ['\n'])
  | [] => false

/-- `re.match('^' + r'\$?[a-zA-Z_][a-zA-Z0-9_]*' + '$', option)` (suggestions.py 101-102,
parser/__init__.py 235) -/
def matchesSymbol (option : List Char) : Bool := matchesName (dropDollar option)

/-- `suggest_symbol` (suggestions.py 90-102) -/
def suggestSymbol (fl : ℚ → ℚ) (word : String) (options : List String) : Option (Option String) :=
  suggest fl word (options.filter fun o => matchesSymbol o.toList)

end RE
