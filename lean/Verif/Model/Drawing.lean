import Verif.Model.Grid

/-! Model of `/repo/benker/drawing.py`.  Strings are lists of characters.

`text` is the function `str(cell)` (cell.py 212-231), an arbitrary function of the cell. -/

namespace Benker.Drawing

/-- the dictionary `TILES` (drawing.py 16-92), keys (left, top, right, bottom) -/
def TILES : Bool × Bool × Bool × Bool → Option (List Char)
  | (true, true, true, true) => some
      "+-----------+\n| XXXXXXXXX |\n+-----------+\n".toList
  | (true, true, true, false) => some
      "+-----------+\n| XXXXXXXXX |\n".toList
  | (true, true, false, true) => some
      "+-----------\n| XXXXXXXXX \n+-----------\n".toList
  | (true, true, false, false) => some
      "+-----------\n| XXXXXXXXX \n".toList
  | (true, false, true, true) => some
      "|           |\n| XXXXXXXXX |\n+-----------+\n".toList
  | (true, false, true, false) => some
      "|           |\n| XXXXXXXXX |\n".toList
  | (true, false, false, true) => some
      "|           \n| XXXXXXXXX \n+-----------\n".toList
  | (true, false, false, false) => some
      "|           \n| XXXXXXXXX \n".toList
  | (false, true, true, true) => some
      "------------+\n  XXXXXXXXX |\n------------+\n".toList
  | (false, true, true, false) => some
      "------------+\n  XXXXXXXXX |\n".toList
  | (false, true, false, true) => some
      "------------\n  XXXXXXXXX \n------------\n".toList
  | (false, true, false, false) => some
      "------------\n  XXXXXXXXX \n".toList
  | (false, false, true, true) => some
      "            |\n  XXXXXXXXX |\n------------+\n".toList
  | (false, false, true, false) => some
      "            |\n  XXXXXXXXX |\n".toList
  | (false, false, false, true) => some
      "            \n  XXXXXXXXX \n------------\n".toList
  | (false, false, false, false) => some
      "            \n  XXXXXXXXX \n".toList

/-- `s.replace(pat, rep)` (Python built-in) for a non-empty `pat`: from left to right, without overlap; `skip` counts the
characters of the current occurrence still to be dropped (drawing.py 116-118) -/
def replaceAux (pat rep : List Char) : Nat → List Char → List Char
  | _, [] => []
  | k + 1, _ :: s => replaceAux pat rep k s
  | 0, c :: s =>
    if pat.isPrefixOf (c :: s) then rep ++ replaceAux pat rep (pat.length - 1) s
    else c :: replaceAux pat rep 0 s

/-- `s.replace(pat, rep)` (drawing.py 116-118) -/
def replaceStr (pat rep s : List Char) : List Char := replaceAux pat rep 0 s

/-- the nine letters replaced by the text (drawing.py 116, 118) -/
def placeholder : List Char := List.replicate 9 'X'

/-- `"{0:^9}".format(text)[:9]` (drawing.py 115): centred, the extra space on the right; then cut -/
def centre9 (text : List Char) : List Char :=
  let pad := 9 - text.length
  (List.replicate (pad / 2) ' ' ++ text ++ List.replicate (pad - pad / 2) ' ').take 9

/-- line boundaries of `str.splitlines` (Python built-in) (drawing.py 125) -/
def isLineBreak (c : Char) : Bool :=
  c ∈ ['\n', '\r', '\x0b', '\x0c', '\x1c', '\x1d', '\x1e', '\u0085', '\u2028', '\u2029']

/-- `list(filter(None, s.splitlines()))` (drawing.py 125): the non-empty pieces between line boundaries; `"\r\n"` is one
boundary for Python and two here, which makes no difference because empty pieces are dropped -/
def splitAux : List Char → List Char → List (List Char)
  | cur, [] => if cur = [] then [] else [cur]
  | cur, c :: s =>
    if isLineBreak c then (if cur = [] then splitAux [] s else cur :: splitAux [] s)
    else splitAux (cur ++ [c]) s

/-- the non-empty lines of a text (drawing.py 125) -/
def tileSplit (s : List Char) : List (List Char) := splitAux [] s

variable {γ : Type}

/-- one tile (drawing.py 101-119); `tiles` is the dictionary of tiles -/
def tileAt (tiles : Bool × Bool × Bool × Bool → Option (List Char)) (text : Cell γ → List Char) (g : Grid γ) (bb : Box)
    (row col : Int) : Except PyErr (List Char) := do
  let key := PyVal.tuple [.int col, .int row]
  let present ← g.contains key
  let (box, txt) ← (if present then do
      let cell ← g.getItem key
      pure (cell.box, text cell)
    else do
      let box ← Box.new [.int col, .int row]
      pure (box, []) : Except PyErr (Box × List Char))
  let left : Bool := box.min.x = col
  let top : Bool := box.min.y = row
  let right : Bool := bb.max.x = col
  let bottom : Bool := bb.max.y = row
  match tiles (left, top, right, bottom) with
  | none => .error .keyError
  | some tile =>
    if (box.min.x + box.max.x) / 2 = col ∧ (box.min.y + box.max.y) / 2 = row then
      .ok (replaceStr placeholder (centre9 txt) tile)
    else .ok (replaceStr placeholder (List.replicate 9 ' ') tile)

/-- `iter_tiles(grid, tiles)` (drawing.py 95-120), turned into a list -/
def iterTiles (tiles : Bool × Bool × Bool × Bool → Option (List Char)) (text : Cell γ → List Char) (g : Grid γ) :
    Except PyErr (List (List (List Char))) := do
  let bb ← g.boundingBox
  match bb with
  | none => .error .attributeError
  | some bb =>
    (pyRange bb.min.y (bb.max.y + 1)).mapM (fun row =>
      (pyRange bb.min.x (bb.max.x + 1)).mapM (fun col => tileAt tiles text g bb row col))

/-- lines of one row of tiles (drawing.py 125-128) -/
def rowLines (row : List (List Char)) : Except PyErr (List (List Char)) := do
  let ts := row.map tileSplit
  let t0 ← pyGetNat ts 0
  (List.range t0.length).mapM (fun index => do
    let parts ← ts.mapM (fun t => pyGetNat t index)
    pure parts.flatten)

/-- `iter_lines(grid, tiles)` (drawing.py 123-128), turned into a list -/
def iterLines (tiles : Bool × Bool × Bool × Bool → Option (List Char)) (text : Cell γ → List Char) (g : Grid γ) :
    Except PyErr (List (List Char)) := do
  let rows ← iterTiles tiles text g
  let ls ← rows.mapM rowLines
  pure ls.flatten

/-- `"\n".join(lines)` (Python built-in) (drawing.py 144) -/
def joinLines : List (List Char) → List Char
  | [] => []
  | [l] => l
  | l :: ls => l ++ '\n' :: joinLines ls

/-- `draw(grid)` (drawing.py 131-145) with the default tiles; a grid is true iff it is not empty -/
def draw (text : Cell γ → List Char) (g : Grid γ) : Except PyErr (List Char) :=
  if g.len ≠ 0 then (iterLines TILES text g).map joinLines else .ok []

end Benker.Drawing
