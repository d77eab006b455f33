import Verif.Model.Geometry
import Verif.Model.Regex

/-! Model of `/repo/benker/units.py`.

Floating point numbers are rational numbers; `fl : Rat → Rat` is the rounding of an exact result to the nearest double.
The theorems assume only that it is accurate (`FloatModel` in the specification), so overflow, underflow, infinities, NaN and the
sign of zero are not modelled. -/

namespace Benker.Units

/-- `[+-]?(?:[0-9]*[.])?[0-9]+` (units.py 75); `Char.isDigit` is `[0-9]` -/
def numberRe : Re :=
  Re.seq (Re.opt (Re.cls (fun c => c = '+' || c = '-')))
    (Re.seq (Re.opt (Re.seq (Re.star Char.isDigit) (Re.cls (· = '.')))) (Re.plus Char.isDigit))

/-- `cm|dm|ft|in|mm|pc|pt|px|m` (units.py 75) -/
def unitRe : Re :=
  Re.alts [Re.lit ['c', 'm'], Re.lit ['d', 'm'], Re.lit ['f', 't'], Re.lit ['i', 'n'], Re.lit ['m', 'm'], Re.lit ['p', 'c'],
    Re.lit ['p', 't'], Re.lit ['p', 'x'], Re.lit ['m']]

/-- value of a text of digits (`float(text)`, units.py 77) -/
def digitsVal (s : List Char) : Nat := Nat.ofDigitChars 10 s 0

/-- exact value of the text of an unsigned decimal number (`float(text)`, units.py 77) -/
def unsignedVal (s : List Char) : Rat :=
  match s.span (· ≠ '.') with
  | (a, _ :: b) => (digitsVal a : Rat) + (digitsVal b : Rat) / (10 ^ b.length : Nat)
  | (a, []) => (digitsVal a : Rat)

/-- exact value of the text accepted by `float` (units.py 77) -/
def decimalVal : List Char → Rat
  | '-' :: s => - unsignedVal s
  | '+' :: s => unsignedVal s
  | s => unsignedVal s

/-- `parse_width(width, default_unit)` (units.py 50-77); `float` rounds the decimal value to a double -/
def parseWidth (fl : Rat → Rat) (width : List Char) (default : List Char := ['m', 'm']) : Except PyErr (Rat × List Char) :=
  match Re.find2 numberRe unitRe width with
  | none => .error .indexError
  | some (w, unit) => .ok (fl (decimalVal w), if unit = [] then default else unit)

/-- `UNITS` (units.py 11-21): the constants are doubles, computed by floating point operations -/
def unitsTable (fl : Rat → Rat) : Dict (List Char) Rat :=
  [(['m', 'm'], fl (1 / 1000)), (['d', 'm'], fl (1 / 10)), (['c', 'm'], fl (1 / 100)), (['m'], fl 1),
   (['i', 'n'], fl (fl (1 / 1000) * fl (254 / 10))), (['f', 't'], fl (3048 / 10000)),
   (['p', 'x'], fl (fl (fl (1 / 1000) * fl (254 / 10)) / 72)), (['p', 't'], fl (fl (fl (1 / 1000) * fl (254 / 10)) / 72)),
   (['p', 'c'], fl (fl (fl (1 / 1000) * fl (254 / 10)) / 12))]

/-- nearest integer, to the even one in case of a tie (`round`, units.py 47) -/
def roundEven (q : Rat) : Int :=
  let n := q.floor
  let r := q - n
  if r < 1 / 2 then n else if 1 / 2 < r then n + 1 else if n % 2 = 0 then n else n + 1

/-- `round(q, k)`: correctly rounded decimal, then nearest double (units.py 47) -/
def pyRound (fl : Rat → Rat) (q : Rat) (k : Nat) : Rat := fl ((roundEven (q * (10 ^ k : Nat)) : Rat) / (10 ^ k : Nat))

/-- `convert_value(value, unit_in, unit_out)` (units.py 24-47) -/
def convertValue (fl : Rat → Rat) (value : Rat) (unitIn unitOut : List Char) : Except PyErr Rat :=
  match Dict.get? (unitsTable fl) unitIn, Dict.get? (unitsTable fl) unitOut with
  | some a, some b => .ok (pyRound fl (fl (fl (value * a) / b)) 3)
  | _, _ => .error .keyError

/-- `"{value:0.2f}".format(value)`: correctly rounded to two decimals.
Simplification: no negative zero. (as in builders/cals.py 248) -/
def format2 (q : Rat) : List Char :=
  let n := roundEven (q * 100)
  let d := n.natAbs
  (if n < 0 then ['-'] else []) ++ Coord.natDigits (d / 100) ++ ['.'] ++ Coord.natDigits (d % 100 / 10) ++ Coord.natDigits (d % 10)

/-- rewriting of a width in another unit: `value, unit = parse_width(w)`, `convert_value`, `"{value:0.2f}{unit}".format(...)`
(builders/cals.py 246-248 and 349-351, parsers/cals/__init__.py 263-265) -/
def rewriteWidth (fl : Rat → Rat) (unitOut : List Char) (w : List Char) : Except PyErr (List Char) := do
  let (value, unit) ← parseWidth fl w
  let v ← convertValue fl value unit unitOut
  pure (format2 v ++ unitOut)

end Benker.Units
