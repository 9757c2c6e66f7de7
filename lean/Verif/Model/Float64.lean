import Verif.Model.Types
import Mathlib.Algebra.Order.Field.Rat
import Mathlib.Algebra.Order.Archimedean.Basic

/-!
# Binary floating point

`parse_timedelta` converts every component with `float(…)` and gives the floats to `datetime.timedelta`
(parser/utilities.py 105-115), whose constructor splits them in binary floating point.  This file models the
correctly rounded conversion and the arithmetic of CPython's `timedelta` constructor (`delta_new` and `accum` in
`Modules/_datetimemodule.c`), which is not part of the engine.
-/

namespace RE

/-- `2 ** e` for a binary exponent, as a fraction of whole powers. -/
def pow2 (e : Int) : ℚ := if 0 ≤ e then ((2 ^ e.toNat : Nat) : ℚ) else 1 / ((2 ^ (-e).toNat : Nat) : ℚ)

/-- The nearest integer, halves to the even one: the rounding mode of IEEE 754. -/
def roundEven (q : ℚ) : Int :=
  let f := ⌊q⌋
  if q - f < 1 / 2 then f
  else if 1 / 2 < q - f then f + 1
  else if f % 2 = 0 then f else f + 1

/-- The exponent of the leading binary digit of a positive number. -/
def ilog2 (q : ℚ) : Int :=
  let k : Int := (Nat.log2 q.num.natAbs : Int) - (Nat.log2 q.den : Int)
  if q < pow2 k then k - 1 else k

/-- The exponent of the last place of the binary float nearest to a positive number: 53 binary digits, and no
digit below `2 ** -1074`. -/
def lastPlace (q : ℚ) : Int := max (ilog2 q - 52) (-1074)

/-- The Python float nearest to a number that is not negative (`float(str)` in parser/utilities.py 107 and float
arithmetic).  Numbers over the largest float, where Python has `inf`, are kept: such a timedelta is out of
range either way. -/
def fl64 (q : ℚ) : ℚ := if q = 0 then 0 else (roundEven (q / pow2 (lastPlace q)) : ℚ) * pow2 (lastPlace q)

/-- C `round`: the nearest integer, halves away from zero (for numbers that are not negative). -/
def cRound (q : ℚ) : Int := ⌊q + 1 / 2⌋

/-- `accum` in `_datetimemodule.c`: add `num` units of `factor` microseconds to the exact total `acc.1` and the
fraction to the leftover `acc.2`. -/
def tdAccum (factor : Int) (num : ℚ) (acc : Int × ℚ) : Int × ℚ :=
  let whole := ⌊num⌋
  let fraction := num - whole
  let sum := acc.1 + whole * factor
  if fraction = 0 then (sum, acc.2)
  else
    let part := fl64 (factor * fraction)
    (sum + ⌊part⌋, fl64 (acc.2 + (part - ⌊part⌋)))

/-- The end of `delta_new` in `_datetimemodule.c`: the leftover is rounded to the nearest microsecond, a half so
that the total is even.  The differences and the halving are exact in floats: the leftover is under 8. -/
def tdRound (acc : Int × ℚ) : Int :=
  let whole := cRound acc.2
  let odd := acc.1 % 2
  if |(whole : ℚ) - acc.2| = 1 / 2 then acc.1 + (2 * cRound ((acc.2 + odd) * (1 / 2)) - odd)
  else acc.1 + whole

/-- `datetime.timedelta(weeks=…, …, seconds=…)` with float arguments, in microseconds before the check of the
range; the components (unit in microseconds, number) come with the largest unit first, and `delta_new` adds the
smallest first. -/
def timedeltaOf (cs : List (Int × ℚ)) : Int :=
  tdRound (cs.foldr (fun c acc => tdAccum c.1 c.2 acc) (0, 0))

/-! ### The `repr` of a float

The engine converts floats with `Decimal(repr(value))` (types.py 55-58). -/

/-- `10 ** e` -/
def pow10 (e : Int) : ℚ := if 0 ≤ e then ((10 ^ e.toNat : Nat) : ℚ) else 1 / ((10 ^ (-e).toNat : Nat) : ℚ)

/-- The exponent of the leading decimal digit of a positive number. -/
def ilog10 (q : ℚ) : Int :=
  let k : Int := (ndigits q.num.natAbs : Int) - (ndigits q.den : Int)
  if q < pow10 k then k - 1 else k

/-- One of the two decimal numbers with last place `10 ** e` around the positive float `x` that is read back as `x`,
if there is one: the nearer one, or the even one. -/
def reprAt (x : ℚ) (e : Int) : Option Nat :=
  let lo := (x / pow10 e).floor.toNat
  let okLo : Bool := decide (fl64 (lo * pow10 e) = x)
  let okHi : Bool := decide (fl64 ((lo + 1 : Nat) * pow10 e) = x)
  let below := x - lo * pow10 e
  let above := (lo + 1 : Nat) * pow10 e - x
  if okLo && okHi then
    if below < above then some lo else if above < below then some (lo + 1)
    else if lo % 2 = 0 then some lo else some (lo + 1)
  else if okLo then some lo
  else if okHi then some (lo + 1)
  else none

/-- The shortest decimal that is read back as `x`: digits and the exponent of the last one, trying the last places
from `e` downwards. -/
def reprSearch (x : ℚ) : Nat → Int → Nat × Int
  | 0, e => ((x / pow10 e).floor.toNat, e)
  | n + 1, e =>
    match reprAt x e with
    | some d => (d, e)
    | none => reprSearch x n (e - 1)

/-- The digits of `repr(x)` for a positive float, without zeros at the end, and the exponent of the last one;
17 digits are always enough. -/
def reprDigits (x : ℚ) : Nat × Int :=
  let (d, e) := reprSearch x 17 (ilog10 x)
  if d % 10 = 0 then (d / 10, e + 1) else (d, e)

/-- `Decimal(repr(x))` (types.py 55-58) for the float `x` that is not negative: `repr` writes at least one digit
after the decimal point unless it uses an exponent, which it does from `1e+16` and below `1e-4`. -/
def reprDec (neg : Bool) (x : ℚ) : Dec :=
  if x = 0 then .fin neg 0 (-1)
  else
    let (d, e) := reprDigits x
    if 0 ≤ e ∧ (ndigits d : Int) + e ≤ 16 then .fin neg (d * 10 ^ (e.toNat + 1)) (-1) else .fin neg d e

/-- `Decimal(x)` (ast.py 584, 625): the exact value of a float that is not negative. -/
def exactDec (neg : Bool) (x : ℚ) : Dec :=
  .fin neg (x.num.natAbs * 5 ^ Nat.log2 x.den) (-(Nat.log2 x.den : Int))

/-- The Python float with this sign and magnitude; `inf` from `2 ** 1024` on. -/
def floatOf (neg : Bool) (x : ℚ) : PyFloat :=
  if pow2 1024 ≤ x then ⟨.inf neg, .inf neg⟩ else ⟨exactDec neg x, reprDec neg x⟩

/-- The float nearest to a number. -/
def floatNear (neg : Bool) (q : ℚ) : PyFloat := floatOf neg (fl64 q)

/-- The true division of Python ints (engine.py 243, and `timedelta.total_seconds()` in engine.py 358): the float
nearest to the quotient. -/
def floatQuot (a b : Int) : PyFloat :=
  floatNear (decide (a < 0) != decide (b < 0)) ((a.natAbs : ℚ) / (b.natAbs : ℚ))

/-- `datetime.timestamp()` of a datetime without a timezone: `seconds + microseconds / 1e6` in floats
(engine.py 223). -/
def naiveTimestamp (us : Int) : PyFloat :=
  let t : ℚ := (us / 1000000 : Int) + fl64 ((us % 1000000 : Int) / 1000000)
  floatNear (decide (t < 0)) |t|

end RE
