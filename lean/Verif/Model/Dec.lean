import Mathlib.Data.Nat.Log

/-!
# `decimal.Decimal`

FLOAT values of the engine are Python `decimal.Decimal` objects (types.py 440-457 and
`_to_decimal` 55-58).  The algorithms below follow `Lib/_pydecimal.py` of CPython, of which the C
accelerator is a re-implementation of the same specification.

Simplifications: no signalling NaN, no NaN payload or sign, `clamp = 0`, and the default traps
(InvalidOperation, DivisionByZero, Overflow are raised, the other signals are not).
-/

namespace RE

/-- A `decimal.Decimal`: sign, coefficient, exponent; or an infinity; or NaN (types.py 55-58). -/
inductive Dec where
  | fin (neg : Bool) (coeff : Nat) (exp : Int)
  | inf (neg : Bool)
  | nan
  deriving DecidableEq, Repr, Inhabited

/-- `decimal` rounding modes (engine.py 446-449, 490). -/
inductive Rounding where
  | ceiling | floor | down | up | halfUp | halfDown | halfEven | zeroFiveUp
  deriving DecidableEq, Repr, Inhabited

/-- `decimal.Context` (precision, exponent range, rounding mode) (engine.py 446-449, 490). -/
structure DecCtx where
  prec : Nat
  emax : Int
  emin : Int
  rounding : Rounding
  deriving DecidableEq, Repr, Inhabited

/-- The default context of `decimal` (`prec=28, rounding=ROUND_HALF_EVEN, Emin=-999999, Emax=999999`)
(engine.py 490). -/
def DecCtx.default : DecCtx := { prec := 28, emax := 999999, emin := -999999, rounding := .halfEven }

/-- The trapped signals.  All three are `ArithmeticError` subclasses; `divZero` is a `ZeroDivisionError`
(ast.py 497-503). -/
inductive DecErr where
  | invalid | divZero | overflow
  deriving DecidableEq, Repr, Inhabited

/-- `len(str(n))`: the number of decimal digits of `n` (1 for zero) (ast.py 498). -/
def ndigits (n : Nat) : Nat := Nat.log 10 n + 1

/-- Does rounding `(-1)^neg * (q + r / p)` (with `0 ≤ r < p`) under mode `m` go away from zero?
`_pydecimal.Decimal._round_*` (ast.py 498). -/
def roundsAway (m : Rounding) (neg : Bool) (q r p : Nat) : Bool :=
  match m with
  | .down => false
  | .up => r != 0
  | .halfUp => decide (p ≤ 2 * r)
  | .halfDown => decide (p < 2 * r)
  | .halfEven => decide (p < 2 * r) || (decide (2 * r = p) && q % 2 == 1)
  | .ceiling => r != 0 && !neg
  | .floor => r != 0 && neg
  | .zeroFiveUp => r != 0 && q % 5 == 0

/-- `_pydecimal.Decimal._fix` on a finite operand: round to the context's precision (ast.py 498). -/
def decFix (c : DecCtx) (neg : Bool) (coeff : Nat) (exp : Int) : Except DecErr Dec :=
  let etiny : Int := c.emin - c.prec + 1
  let etop : Int := c.emax - c.prec + 1
  if coeff = 0 then
    .ok (.fin neg 0 (min (max exp etiny) c.emax))
  else
    let expMin0 : Int := (ndigits coeff : Int) + exp - c.prec
    if etop < expMin0 then .error .overflow
    else
      let expMin : Int := max expMin0 etiny
      if exp < expMin then
        let p := 10 ^ (expMin - exp).toNat
        let q := coeff / p
        let r := coeff % p
        let q' := if roundsAway c.rounding neg q r p then q + 1 else q
        let (q'', e'') := if c.prec < ndigits q' then (q' / 10, expMin + 1) else (q', expMin)
        if etop < e'' then .error .overflow else .ok (.fin neg q'' e'')
      else .ok (.fin neg coeff exp)

/-- The integer `±coeff * 10^(exp - e)`, for `e ≤ exp`: a finite Decimal on the common exponent `e`
(ast.py 498). -/
def scaled (neg : Bool) (coeff : Nat) (exp e : Int) : Int :=
  let m : Int := (coeff * 10 ^ (exp - e).toNat : Nat)
  if neg then -m else m

/-- `Decimal.__add__`.  `_normalize` (an optimisation for operands of very different magnitude) is
replaced by the exact sum, which rounds to the same result (ast.py 445, 498). -/
def decAdd (c : DecCtx) : Dec → Dec → Except DecErr Dec
  | .nan, _ => .ok .nan
  | _, .nan => .ok .nan
  | .inf a, .inf b => if a = b then .ok (.inf a) else .error .invalid
  | .inf a, .fin .. => .ok (.inf a)
  | .fin .., .inf b => .ok (.inf b)
  | .fin na ca ea, .fin nb cb eb =>
    let e := min ea eb
    let s := scaled na ca ea e + scaled nb cb eb e
    if s = 0 then
      let neg :=
        if c.rounding = .floor ∧ na ≠ nb then true
        else if ca = 0 ∧ cb = 0 then na && nb else false
      decFix c neg 0 e
    else decFix c (decide (s < 0)) s.natAbs e

/-- `Decimal.copy_negate` (ast.py 486). -/
def decCopyNegate : Dec → Dec
  | .fin n k e => .fin (!n) k e
  | .inf n => .inf (!n)
  | .nan => .nan

/-- `Decimal.__sub__`: `self.__add__(other.copy_negate())` (ast.py 486). -/
def decSub (c : DecCtx) (a b : Dec) : Except DecErr Dec := decAdd c a (decCopyNegate b)

/-- `Decimal.__mul__` (ast.py 508). -/
def decMul (c : DecCtx) : Dec → Dec → Except DecErr Dec
  | .nan, _ => .ok .nan
  | _, .nan => .ok .nan
  | .inf a, .inf b => .ok (.inf (xor a b))
  | .inf a, .fin b k _ => if k = 0 then .error .invalid else .ok (.inf (xor a b))
  | .fin a k _, .inf b => if k = 0 then .error .invalid else .ok (.inf (xor a b))
  | .fin na ca ea, .fin nb cb eb => decFix c (xor na nb) (ca * cb) (ea + eb)

/-- The `while exp < ideal_exp and coeff % 10 == 0` loop of `__truediv__`; `fuel` bounds the number
of iterations by `ideal_exp - exp` (ast.py 506). -/
def stripZeros : Nat → Nat → Int → Nat × Int
  | 0, k, e => (k, e)
  | n + 1, k, e => if k % 10 = 0 then stripZeros n (k / 10) (e + 1) else (k, e)

/-- `Decimal.__truediv__` (ast.py 506). -/
def decDiv (c : DecCtx) : Dec → Dec → Except DecErr Dec
  | .nan, _ => .ok .nan
  | _, .nan => .ok .nan
  | .inf _, .inf _ => .error .invalid
  | .inf a, .fin b _ _ => .ok (.inf (xor a b))
  | .fin a _ _, .inf b => .ok (.fin (xor a b) 0 (c.emin - c.prec + 1))
  | .fin na ca ea, .fin nb cb eb =>
    let neg := xor na nb
    if cb = 0 then (if ca = 0 then .error .invalid else .error .divZero)
    else if ca = 0 then decFix c neg 0 (ea - eb)
    else
      let shift : Int := (ndigits cb : Int) - ndigits ca + c.prec + 1
      let e : Int := ea - eb - shift
      let num := ca * 10 ^ shift.toNat
      let den := cb * 10 ^ (-shift).toNat
      let k := num / den
      let r := num % den
      if r ≠ 0 then decFix c neg (if k % 5 = 0 then k + 1 else k) e
      else
        let (k', e') := stripZeros (ea - eb - e).toNat k e
        decFix c neg k' e'

/-- `Decimal._divide` for finite operands and non-zero divisor: truncated quotient and remainder,
both computed on the common exponent `min ea eb`; InvalidOperation (DivisionImpossible) when the
quotient has more than `prec` digits.  (The early exits of `_divide` on the exponent difference
decide the same condition without computing the quotient.) (ast.py 505, 507) -/
def decDivide (c : DecCtx) (na : Bool) (ca : Nat) (ea : Int) (nb : Bool) (cb : Nat) (eb : Int) :
    Except DecErr ((Bool × Nat × Int) × (Bool × Nat × Int)) :=
  let e := min ea eb
  let x := ca * 10 ^ (ea - e).toNat
  let y := cb * 10 ^ (eb - e).toNat
  if x / y < 10 ^ c.prec then .ok ((xor na nb, x / y, 0), (na, x % y, e))
  else .error .invalid

/-- `Decimal.__floordiv__` (which truncates).  The C accelerator finalises the quotient like any
other result (this only matters for contexts whose `Emax` is smaller than their precision)
(ast.py 505). -/
def decFloorDiv (c : DecCtx) : Dec → Dec → Except DecErr Dec
  | .nan, _ => .ok .nan
  | _, .nan => .ok .nan
  | .inf _, .inf _ => .error .invalid
  | .inf a, .fin b _ _ => .ok (.inf (xor a b))
  | .fin a _ _, .inf b => .ok (.fin (xor a b) 0 0)
  | .fin na ca ea, .fin nb cb eb =>
    if cb = 0 then (if ca = 0 then .error .invalid else .error .divZero)
    else do
      let ((n, q, e), _) ← decDivide c na ca ea nb cb eb
      decFix c n q e

/-- `Decimal.__mod__` (sign of the dividend) (ast.py 507). -/
def decMod (c : DecCtx) : Dec → Dec → Except DecErr Dec
  | .nan, _ => .ok .nan
  | _, .nan => .ok .nan
  | .inf _, _ => .error .invalid
  | .fin na ca ea, .inf _ => decFix c na ca ea
  | .fin na ca ea, .fin nb cb eb =>
    if cb = 0 then .error .invalid
    else do
      let (_, (n, r, e)) ← decDivide c na ca ea nb cb eb
      decFix c n r e

/-- `Decimal.__neg__` (ast.py 1262). -/
def decNeg (c : DecCtx) : Dec → Except DecErr Dec
  | .nan => .ok .nan
  | .inf n => .ok (.inf (!n))
  | .fin n k e => decFix c (if k = 0 ∧ c.rounding ≠ .floor then false else !n) k e

/-- `Decimal.__pos__` (builtins.py 172). -/
def decPos (c : DecCtx) : Dec → Except DecErr Dec
  | .nan => .ok .nan
  | .inf n => .ok (.inf n)
  | .fin n k e => decFix c (if k = 0 ∧ c.rounding ≠ .floor then false else n) k e

/-- `Decimal.__abs__` (builtins.py 169). -/
def decAbs (c : DecCtx) (d : Dec) : Except DecErr Dec :=
  match d with
  | .nan => .ok .nan
  | .inf n => if n then decNeg c d else decPos c d
  | .fin n _ _ => if n then decNeg c d else decPos c d

/-- Numerical three-way comparison of non-NaN Decimals (`Decimal._cmp`); `none` if one is NaN
(ast.py 582-584, 625). -/
def decCmp : Dec → Dec → Option Ordering
  | .nan, _ => none
  | _, .nan => none
  | .inf a, .inf b => some (compare b.toNat a.toNat)
  | .inf a, .fin .. => some (if a then .lt else .gt)
  | .fin .., .inf b => some (if b then .gt else .lt)
  | .fin na ca ea, .fin nb cb eb =>
    let e := min ea eb
    some (compare (scaled na ca ea e) (scaled nb cb eb e))

/-- `Decimal.__eq__` between Decimals (false if one is NaN) (ast.py 584). -/
def decEq (a b : Dec) : Bool := decCmp a b == some .eq

/-- The exact Decimal of a Python `int` (`Decimal(n)`, `Decimal(repr(n))`) (types.py 55-58). -/
def Dec.ofInt (i : Int) : Dec := .fin (decide (i < 0)) i.natAbs 0

/-- `bool(Decimal)`: false only for zero (ast.py 569, 572, 1199). -/
def Dec.truthy : Dec → Bool
  | .fin _ k _ => k != 0
  | _ => true

/-- `math.floor(Decimal)` for finite values (`__floor__`: `int(self._rescale(0, ROUND_FLOOR))`)
(engine.py 274-276, types.py 90-105). -/
def decFloor (neg : Bool) (k : Nat) (e : Int) : Int :=
  if 0 ≤ e then scaled neg k e 0
  else
    let m : Int := if neg then -(k : Int) else k
    m / (10 ^ (-e).toNat : Nat)

/-- `math.ceil(Decimal)` for finite values (engine.py 270-272). -/
def decCeil (neg : Bool) (k : Nat) (e : Int) : Int := -decFloor (!neg) k e

/-- `int(Decimal)` for finite values: truncation toward zero
(engine.py 286-290; ast.py 546, 900). -/
def decTrunc (neg : Bool) (k : Nat) (e : Int) : Int :=
  let m : Nat := if 0 ≤ e then k * 10 ^ e.toNat else k / 10 ^ (-e).toNat
  if neg then -(m : Int) else m

/-- Is the finite Decimal an integer (`math.floor(value) == value`)? (types.py 90-105) -/
def decIsInt (neg : Bool) (k : Nat) (e : Int) : Bool :=
  decEq (.ofInt (decFloor neg k e)) (.fin neg k e)

/-- The smallest magnitude that converts to an infinite binary float (round-half-even of IEEE
doubles): halfway between the largest finite one and `2^1024` (types.py 122-136). -/
@[irreducible] def doubleLimit : Nat := 2 ^ 1024 - 2 ^ 970

/-- `float(d)` is infinite iff `|d| ≥ 2^1024 - 2^970`.  `math.isfinite(Decimal)` (types.py 136) converts
to `float` first, so it is false for such values. -/
def decFloatOverflows (k : Nat) (e : Int) : Bool :=
  decide (doubleLimit * 10 ^ (-e).toNat ≤ k * 10 ^ e.toNat)

/-- `math.isfinite(d)` (types.py 90-136). -/
def decIsFinite : Dec → Bool
  | .fin _ k e => !decFloatOverflows k e
  | _ => false

end RE
