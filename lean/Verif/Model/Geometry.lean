import Verif.Py
import Verif.Model.Alphabet

/-! Model of `/repo/benker/size.py`, `/repo/benker/coord.py` and `/repo/benker/box.py`.

The members of the three named tuples are integers (Python does not enforce it, but every other
choice makes the constructors of `Box` fail). -/

namespace Benker

/-- `Size(width, height)` (size.py 14, 17) -/
structure Size where
  width : Int
  height : Int
deriving DecidableEq, Repr

/-- `Coord(x, y)` (coord.py 17, 20) -/
structure Coord where
  x : Int
  y : Int
deriving DecidableEq, Repr

/-- `Box(min, max)` as stored (box.py 102, 106); validity is established by the constructor `Box.new` -/
structure Box where
  min : Coord
  max : Coord
deriving DecidableEq, Repr

/-- Dynamically typed argument.  `other` stands for a value of any other type (string, float, cell, list, ...). (the `value` of coord.py 95-111) -/
inductive PyVal where
  | none
  | int (i : Int)
  | bool (b : Bool)
  | tuple (items : List PyVal)
  | size (s : Size)
  | coord (c : Coord)
  | box (b : Box)
  | other

/-- operand of integer addition: an `int`, or a `bool` which counts as 0 or 1; `TypeError` otherwise
(simplification: adding a float member would succeed in Python) (coord.py 72-92) -/
def PyVal.toNum : PyVal → Except PyErr Int
  | .int i => .ok i
  | .bool b => .ok (if b then 1 else 0)
  | _ => .error .typeError

/-- the pair `(size[0], size[1])` added or subtracted by `Size`/`Coord` arithmetic on a plain tuple
(size.py 73, 84; coord.py 77, 88) -/
def tuplePair (items : List PyVal) : Except PyErr (Int × Int) := do
  let a ← pyGetNat items 0
  let a ← a.toNum
  let b ← pyGetNat items 1
  let b ← b.toNum
  pure (a, b)

namespace Size

/-- `Size.__add__` (size.py 68-77) -/
def add (self : Size) : PyVal → Except PyErr Size
  | .size s => .ok ⟨self.width + s.width, self.height + s.height⟩
  | .tuple l => do let (a, b) ← tuplePair l; pure ⟨self.width + a, self.height + b⟩
  | .int i => .ok ⟨self.width + i, self.height + i⟩
  | _ => .error .typeError

/-- `Size.__sub__` (size.py 79-88) -/
def sub (self : Size) : PyVal → Except PyErr Size
  | .size s => .ok ⟨self.width - s.width, self.height - s.height⟩
  | .tuple l => do let (a, b) ← tuplePair l; pure ⟨self.width - a, self.height - b⟩
  | .int i => .ok ⟨self.width - i, self.height - i⟩
  | _ => .error .typeError

/-- `Size.__mul__` (size.py 90-95) -/
def mul (self : Size) : PyVal → Except PyErr Size
  | .int i => .ok ⟨self.width * i, self.height * i⟩
  | _ => .error .typeError

/-- `Size.__neg__` (size.py 97-98) -/
def neg (self : Size) : Size := ⟨-self.width, -self.height⟩

/-- `Size.__pos__` (size.py 100-101) -/
def pos (self : Size) : Size := ⟨self.width, self.height⟩

/-- `Size.from_value` (size.py 103-120) -/
def fromValue : PyVal → Except PyErr Size
  | .size s => .ok s
  | .tuple [.int w, .int h] => .ok ⟨w, h⟩
  | _ => .error .typeError

end Size

namespace Coord

/-- `Coord.__add__` with a `Size` operand (coord.py 74-75) -/
def addSize (self : Coord) (s : Size) : Coord := ⟨self.x + s.width, self.y + s.height⟩

/-- `Coord.__sub__` with an `int` operand (coord.py 89-90) -/
def subInt (self : Coord) (i : Int) : Coord := ⟨self.x - i, self.y - i⟩

/-- `Coord.__add__` (coord.py 72-81) -/
def add (self : Coord) : PyVal → Except PyErr Coord
  | .size s => .ok (self.addSize s)
  | .tuple l => do let (a, b) ← tuplePair l; pure ⟨self.x + a, self.y + b⟩
  | .int i => .ok ⟨self.x + i, self.y + i⟩
  | _ => .error .typeError

/-- `Coord.__sub__` (coord.py 83-92) -/
def sub (self : Coord) : PyVal → Except PyErr Coord
  | .size s => .ok ⟨self.x - s.width, self.y - s.height⟩
  | .tuple l => do let (a, b) ← tuplePair l; pure ⟨self.x - a, self.y - b⟩
  | .int i => .ok (self.subInt i)
  | _ => .error .typeError

/-- `Coord.from_value` (coord.py 94-111) -/
def fromValue : PyVal → Except PyErr Coord
  | .coord c => .ok c
  | .tuple [.int x, .int y] => .ok ⟨x, y⟩
  | _ => .error .typeError

/-- decimal digits of a natural number, as printed by `str` (Python built-in) (alphabet.py 15-60, coord.py 66-70) -/
def natDigits (n : Nat) : List Char := Nat.toDigits 10 n

/-- `str(int)` (Python built-in) (coord.py 66-70) -/
def intDigits (i : Int) : List Char :=
  if i < 0 then '-' :: natDigits (-i).toNat else natDigits i.toNat

/-- `Coord.__str__` (coord.py 66-67) -/
def str (self : Coord) : Except PyErr (List Char) :=
  match intToAlphabet self.x asciiUppercase with
  | .error e => .error e
  | .ok w => .ok (w ++ intDigits self.y)

end Coord

namespace Box

/-- end of `Box.__new__`: check of the four members (box.py 169-174) -/
def make (minX minY maxX maxY : Int) : Except PyErr Box :=
  if (0 < minX ∧ minX ≤ maxX) ∧ (0 < minY ∧ minY ≤ maxY) then .ok ⟨⟨minX, minY⟩, ⟨maxX, maxY⟩⟩
  else .error .valueError

/-- `Box.__new__(*args)` (box.py 126-174) -/
def new : List PyVal → Except PyErr Box
  | [.coord a, .coord b] => make a.x a.y b.x b.y
  | [.coord a, .size s] =>
    let m := (a.addSize s).subInt 1
    make a.x a.y m.x m.y
  | [.coord a] => make a.x a.y a.x a.y
  | [.int a, .int b, .int c, .int d] => make a b c d
  | [.int a, .int b] => make a b a b
  | [.box b] => .ok b
  | _ => .error .typeError

/-- `Box.width` (box.py 184-187) -/
def width (b : Box) : Int := b.max.x - b.min.x + 1

/-- `Box.height` (box.py 189-192) -/
def height (b : Box) : Int := b.max.y - b.min.y + 1

/-- `Box.size` (box.py 194-196) -/
def size (b : Box) : Size := ⟨b.width, b.height⟩

/-- `Box.__str__` (box.py 176-179) -/
def str (b : Box) : Except PyErr (List Char) :=
  if b.width = 1 ∧ b.height = 1 then b.min.str
  else
    match b.min.str, b.max.str with
    | .ok s, .ok t => .ok (s ++ [':'] ++ t)
    | .error e, _ => .error e
    | _, .error e => .error e

/-- `Box.transform` after conversion of its arguments (box.py 198-202) -/
def transform (b : Box) (coord : Option Coord) (size : Option Size) : Except PyErr Box :=
  let minCoord := match coord with | none => b.min | some c => c
  let size := match size with | none => b.size | some s => s
  let maxCoord := (minCoord.addSize size).subInt 1
  make minCoord.x minCoord.y maxCoord.x maxCoord.y

/-- `None` or the converted argument (box.py 199-200) -/
def optArg (conv : PyVal → Except PyErr α) : PyVal → Except PyErr (Option α)
  | .none => .ok none
  | v => (conv v).map some

/-- `Box.transform(coord, size)` on dynamic arguments (box.py 198-202) -/
def transformV (b : Box) (coord size : PyVal) : Except PyErr Box := do
  let c ← optArg Coord.fromValue coord
  let s ← optArg Size.fromValue size
  b.transform c s

/-- `Box.move_to` (box.py 204-205) -/
def moveTo (b : Box) (coord : PyVal) : Except PyErr Box := b.transformV coord .none

/-- `Box.resize` (box.py 207-208) -/
def resize (b : Box) (size : PyVal) : Except PyErr Box := b.transformV .none size

/-- `coord in box` for a `Coord` (box.py 212-213) -/
def hasCoord (b : Box) (c : Coord) : Bool :=
  (b.min.x ≤ c.x && c.x ≤ b.max.x) && (b.min.y ≤ c.y && c.y ≤ b.max.y)

/-- `inner in box` for a `Box` (box.py 216-217) -/
def hasBox (b inner : Box) : Bool := b.hasCoord inner.min && b.hasCoord inner.max

/-- `Box.__contains__` (box.py 210-218) -/
def contains (b : Box) : PyVal → Except PyErr Bool
  | .coord c => .ok (b.hasCoord c)
  | .tuple [.int x, .int y] => .ok (b.hasCoord ⟨x, y⟩)
  | .box i => .ok (b.hasBox i)
  | _ => .error .typeError

/-- `Box.intersect` (box.py 220-223) -/
def intersect (self that : Box) : Bool :=
  (that.hasCoord self.min || that.hasCoord self.max) ||
  (self.hasCoord that.min || self.hasCoord that.max)

/-- `Box.isdisjoint` (box.py 225-227) -/
def isdisjoint (self that : Box) : Bool := !self.intersect that

/-- Python `min` of a non-empty sequence `x, *xs` (box.py 252-256) -/
def minOf (x : Int) (xs : List Int) : Int := xs.foldl (fun m y => if y < m then y else m) x

/-- Python `max` of a non-empty sequence `x, *xs` (box.py 252-256) -/
def maxOf (x : Int) (xs : List Int) : Int := xs.foldl (fun m y => if y > m then y else m) x

/-- `Box.union(*others)` (box.py 229-259), also `|` -/
def union (self : Box) (others : List Box) : Except PyErr Box :=
  match make (minOf self.min.x (others.map (·.min.x))) (minOf self.min.y (others.map (·.min.y)))
      (maxOf self.max.x (others.map (·.max.x))) (maxOf self.max.y (others.map (·.max.y))) with
  | .error e => .error e
  | .ok bb => if (self :: others).all (fun b => bb.hasBox b) then .ok bb else .error .assertionError

/-- `Box.intersection(*others)` (box.py 263-297), also `&` -/
def intersection (self : Box) (others : List Box) : Except PyErr Box :=
  make (maxOf self.min.x (others.map (·.min.x))) (maxOf self.min.y (others.map (·.min.y)))
      (minOf self.max.x (others.map (·.max.x))) (minOf self.max.y (others.map (·.max.y)))

/-- `Box.__lt__` between boxes (box.py 304-340) -/
def lt (self other : Box) : Bool :=
  if self.min.y = other.min.y then
    if self.min.x = other.min.x then
      if self.max.y = other.max.y then self.max.x < other.max.x
      else self.max.y < other.max.y
    else self.min.x < other.min.x
  else self.min.y < other.min.y

/-- comparison of two pairs as Python tuples: the first differing member decides (box.py 304-341) -/
def pairCmp (cmp : Int → Int → Bool) (a b : Coord) : Bool :=
  if a.x = b.x then cmp a.y b.y else cmp a.x b.x

/-- comparison of two boxes as the tuples `(min, max)`, each a tuple `(x, y)`.
`functools.total_ordering` (box.py 105) defines only the operators which the class does not
already have; `BoxTuple` is a `tuple` (box.py 102), so `>`, `<=` and `>=` remain those of `tuple`. -/
def tupleCmp (cmp : Int → Int → Bool) (a b : Box) : Bool :=
  if a.min = b.min then pairCmp cmp a.max b.max else pairCmp cmp a.min b.min

/-- `Box.__gt__`, inherited from `tuple` (box.py 102, 105-106) -/
def gt (self other : Box) : Bool := tupleCmp (fun i j => decide (i > j)) self other
/-- `Box.__le__`, inherited from `tuple` (box.py 102, 105-106) -/
def le (self other : Box) : Bool := tupleCmp (fun i j => decide (i ≤ j)) self other
/-- `Box.__ge__`, inherited from `tuple` (box.py 102, 105-106) -/
def ge (self other : Box) : Bool := tupleCmp (fun i j => decide (i ≥ j)) self other

end Box
end Benker
