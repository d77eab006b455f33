import Verif.Lemmas.Drawing
import Verif.Props.GridMerge

/-! C29, C30, C59: drawings. -/

namespace Benker
open Drawing
variable {γ : Type}

theorem pyRange_split (a m b : Int) (h1 : a ≤ m) (h2 : m ≤ b) : pyRange a b = pyRange a m ++ pyRange m b := by
  unfold pyRange
  have e : (b - a).toNat = (m - a).toNat + (b - m).toNat := by omega
  rw [e, List.range_add, List.map_append, List.map_map]
  congr 1
  apply List.map_congr_left
  intro i _
  simp only [Function.comp]
  omega

theorem pyRange_cons (a b : Int) (h : a < b) : pyRange a b = a :: pyRange (a + 1) b := by
  rw [pyRange_split a (a + 1) b (by omega) (by omega)]
  have : pyRange a (a + 1) = [a] := by
    unfold pyRange
    have e : (a + 1 - a).toNat = 1 := by omega
    rw [e]; simp
  rw [this]; rfl

theorem flatMap_length_const {α β : Type} (F : α → List β) (n : Nat) (l : List α) (h : ∀ a ∈ l, (F a).length = n) :
    (l.flatMap F).length = n * l.length := by
  induction l with
  | nil => simp
  | cons a l ih =>
    rw [List.flatMap_cons, List.length_append, h a (by simp), ih (fun b hb => h b (by simp [hb])), List.length_cons, Nat.mul_add]
    omega

/-- a line made of one piece per column, the last piece being one character longer -/
theorem line_length (a b : Int) (hab : a ≤ b) (F : Int → List Char) (hF : ∀ x, (F x).length = 12 + if b = x then 1 else 0) :
    (((pyRange a (b + 1)).flatMap F).length : Int) = 12 * (b - a + 1) + 1 := by
  rw [pyRange_split a b (b + 1) hab (by omega), pyRange_cons b (b + 1) (by omega)]
  have : pyRange (b + 1) (b + 1) = [] := by simp [pyRange]
  rw [this, List.flatMap_append, List.length_append, flatMap_length_const F 12]
  · have h1 := hF b
    rw [length_pyRange]
    simp only [List.flatMap_cons, List.flatMap_nil, List.append_nil, h1, if_true]
    omega
  · intro x hx
    rw [mem_pyRange] at hx
    rw [hF]; simp; omega

/-- piece of column `x` of such a line -/
theorem line_piece (a b x : Int) (h1 : a ≤ x) (h2 : x ≤ b) (F : Int → List Char) (hF : ∀ x, (F x).length = 12 + if b = x then 1 else 0) :
    ∃ rest, ((pyRange a (b + 1)).flatMap F).drop (12 * (x - a).toNat) = F x ++ rest := by
  rw [pyRange_split a x (b + 1) h1 (by omega), pyRange_cons x (b + 1) (by omega), List.flatMap_append, List.flatMap_cons]
  refine ⟨_, List.drop_left' ?_⟩
  rw [flatMap_length_const F 12, length_pyRange]
  intro y hy
  rw [mem_pyRange] at hy
  rw [hF]; simp; omega

theorem lineTop_length (l t r : Bool) : (lineTop l t r).length = 12 + if r then 1 else 0 := by
  cases l <;> cases t <;> cases r <;> rfl
theorem lineBot_length (l r : Bool) : (lineBot l r).length = 12 + if r then 1 else 0 := by
  cases l <;> cases r <;> rfl
theorem lineMid_length (l r : Bool) (title : List Char) (h : title.length = 9) : (lineMid l r title).length = 12 + if r then 1 else 0 := by
  cases r <;> simp [lineMid, h]

theorem noBreak_newline {s : List Char} (h : NoBreak s) : '\n' ∉ s := by
  intro hc
  have := h _ hc
  revert this; decide

/-- the lines of a drawing, and their shape -/
theorem drawing_shape (g : Grid γ) (hinv : g.Inv) (text : Cell γ → List Char) (ht : ∀ c ∈ g.cells, NoBreak (text c))
    (bb : Box) (hbb : g.boundingBox = .ok (some bb)) (hv : bb.Valid) :
    draw text g = .ok (joinLines ((pyRange bb.min.y (bb.max.y + 1)).flatMap (rowText text g bb))) ∧
    (((pyRange bb.min.y (bb.max.y + 1)).flatMap (rowText text g bb)).length : Int) = 2 * bb.height + 1 ∧
    (∀ l ∈ (pyRange bb.min.y (bb.max.y + 1)).flatMap (rowText text g bb), (l.length : Int) = 12 * bb.width + 1 ∧ '\n' ∉ l) ∧
    (∀ y, bb.min.y ≤ y → y ≤ bb.max.y → ∃ rest,
      ((pyRange bb.min.y (bb.max.y + 1)).flatMap (rowText text g bb)).drop (2 * (y - bb.min.y).toNat) = rowText text g bb y ++ rest) := by
  have hlines := iterLines_run text g hinv bb hbb hv ht
  unfold Box.Valid at hv
  have hlen : ∀ y, (rowText text g bb y).length = 2 + if bb.max.y = y then 1 else 0 := by
    intro y; unfold rowText; split <;> simp_all
  refine ⟨?_, ?_, ?_, ?_⟩
  · unfold draw
    have : g.len ≠ 0 := by
      intro h0
      have hnil : g.cells = [] := List.eq_nil_of_length_eq_zero h0
      have : g.boundingBox = .ok none := by unfold Grid.boundingBox; rw [hnil]; rfl
      rw [this] at hbb; cases hbb
    rw [if_pos this, hlines]; rfl
  · rw [pyRange_split bb.min.y bb.max.y (bb.max.y + 1) (by omega) (by omega), pyRange_cons bb.max.y (bb.max.y + 1) (by omega)]
    have : pyRange (bb.max.y + 1) (bb.max.y + 1) = [] := by simp [pyRange]
    rw [this, List.flatMap_append, List.length_append, flatMap_length_const _ 2, length_pyRange]
    · simp only [List.flatMap_cons, List.flatMap_nil, List.append_nil, hlen, if_true]
      unfold Box.height; omega
    · intro y hy; rw [mem_pyRange] at hy; rw [hlen]; simp; omega
  · intro l hl
    obtain ⟨y, hy, hl⟩ := List.mem_flatMap.mp hl
    have key : ∀ F : Int → List Char, (∀ x, (F x).length = 12 + if bb.max.x = x then 1 else 0) → (∀ x, NoBreak (F x)) →
        ((((pyRange bb.min.x (bb.max.x + 1)).flatMap F).length : Int) = 12 * bb.width + 1 ∧
          '\n' ∉ (pyRange bb.min.x (bb.max.x + 1)).flatMap F) := by
      intro F hF hN
      refine ⟨by rw [line_length _ _ (by omega) F hF]; unfold Box.width; omega, ?_⟩
      apply noBreak_newline
      intro c hc
      obtain ⟨x, _, hcx⟩ := List.mem_flatMap.mp hc
      exact hN x c hcx
    have k1 := key (fun x => lineTop (leftOf g ⟨x, y⟩) (topOf g ⟨x, y⟩) (decide (bb.max.x = x)))
      (fun x => by rw [lineTop_length]; simp) (fun x => noBreak_top _ _ _)
    have k2 := key (fun x => lineMid (leftOf g ⟨x, y⟩) (decide (bb.max.x = x)) (shownTitle text g ⟨x, y⟩))
      (fun x => by rw [lineMid_length _ _ _ (shownTitle_length _ _ _)]; simp) (fun x => noBreak_mid _ _ _ (shownTitle_noBreak text g ht _))
    have k3 := key (fun x => lineBot (leftOf g ⟨x, y⟩) (decide (bb.max.x = x)))
      (fun x => by rw [lineBot_length]; simp) (fun x => noBreak_bot _ _)
    unfold rowText at hl
    simp only [List.mem_cons] at hl
    rcases hl with rfl | rfl | hl
    · exact k1
    · exact k2
    · split at hl
      · rw [List.mem_singleton] at hl; subst hl; exact k3
      · simp at hl
  · intro y h1 h2
    rw [pyRange_split bb.min.y y (bb.max.y + 1) h1 (by omega), pyRange_cons y (bb.max.y + 1) (by omega), List.flatMap_append,
      List.flatMap_cons]
    refine ⟨_, List.drop_left' ?_⟩
    rw [flatMap_length_const _ 2, length_pyRange]
    intro z hz
    rw [mem_pyRange] at hz
    rw [hlen]; simp; omega

/-- grids built by any history of operations -/
def Grid.Reachable (g : Grid γ) : Prop := ∃ ops, g = Grid.run ops

theorem Grid.Reachable.inv {g : Grid γ} (h : g.Reachable) : g.Inv := by
  obtain ⟨ops, rfl⟩ := h; exact run_inv ops

/-- the characters which end a line for `str.splitlines` -/
def lineEnds : List Char := ['\n', '\r', '\x0b', '\x0c', '\x1c', '\x1d', '\x1e', '\u0085', '\u2028', '\u2029']

/-- the text has none of the characters which end a line -/
def SingleLine (s : List Char) : Prop := ∀ c ∈ s, c ∉ lineEnds

theorem SingleLine.noBreak {s : List Char} (h : SingleLine s) : NoBreak s := by
  intro c hc
  have := h c hc
  simpa [isLineBreak, lineEnds] using this

/-- a grid with spanning cells and a hole -/
def drawDemo : Grid String := Grid.run
  [.set (.tuple [.int 1, .int 1]) ⟨some "red", none, none, 1, 1, 2, 1⟩, .set (.tuple [.int 3, .int 1]) ⟨some "pink", none, none, 1, 1, 1, 2⟩,
   .set (.tuple [.int 1, .int 2]) ⟨some "blueblueblue", none, none, 1, 1, 1, 1⟩]
def drawDemoText (c : Cell String) : List Char := (c.content.getD "").toList

theorem joinLines_eq (lines : List (List Char)) : joinLines lines = ['\n'].intercalate lines := by
  induction lines with
  | nil => rfl
  | cons l ls ih =>
    cases ls with
    | nil => simp [joinLines, List.intercalate, List.intersperse]
    | cons m ms =>
      rw [joinLines, ih]
      · simp [List.intercalate, List.intersperse]
      · simp

theorem rectangular_of_inv (g : Grid γ) (hg : g.Inv) (text : Cell γ → List Char) (ht : ∀ c ∈ g.cells, SingleLine (text c)) :
    (g.cells = [] → draw text g = .ok []) ∧
    (g.cells ≠ [] → ∃ bb lines, g.boundingBox = .ok (some bb) ∧ draw text g = .ok (['\n'].intercalate lines) ∧
      (lines.length : Int) = 2 * bb.height + 1 ∧ ∀ l ∈ lines, (l.length : Int) = 12 * bb.width + 1 ∧ '\n' ∉ l) := by
  constructor
  · intro h; simp [draw, Grid.len, h]
  · intro hne
    rcases boundingBox_inv g hg with ⟨h1, _⟩ | ⟨bb, _, h2, hv, _⟩
    · exact absurd h1 hne
    · obtain ⟨e1, e2, e3, _⟩ := drawing_shape g hg text (fun c hc => (ht c hc).noBreak) bb h2 hv
      exact ⟨bb, _, h2, by rw [e1, joinLines_eq], e2, e3⟩

/-- **C29**: the drawing of an empty grid is the empty string; the drawing of any other grid, whose texts are single lines, is made
of `2 * height + 1` lines of `12 * width + 1` characters, where `width` and `height` are those of the bounding box. -/
theorem C29_rectangular (g : Grid γ) (hg : g.Reachable) (text : Cell γ → List Char) (ht : ∀ c ∈ g.cells, SingleLine (text c)) :
    (g.cells = [] → draw text g = .ok []) ∧
    (g.cells ≠ [] → ∃ bb lines, g.boundingBox = .ok (some bb) ∧ draw text g = .ok (['\n'].intercalate lines) ∧
      (lines.length : Int) = 2 * bb.height + 1 ∧ ∀ l ∈ lines, (l.length : Int) = 12 * bb.width + 1 ∧ '\n' ∉ l) :=
  rectangular_of_inv g hg.inv text ht

example : drawDemo.Reachable ∧ drawDemo.cells ≠ [] ∧ (∀ c ∈ drawDemo.cells, SingleLine (drawDemoText c)) :=
  ⟨⟨_, rfl⟩, by decide +kernel, by unfold SingleLine; decide +kernel⟩
example : draw drawDemoText drawDemo = .ok (['\n'].intercalate
      ["+-----------------------+-----------+".toList,
       "|    red                |   pink    |".toList,
       "+-----------+-----------|           |".toList,
       "| blueblueb |           |           |".toList,
       "+-----------+-----------+-----------+".toList]) := by decide +kernel

/-- Outside the hypothesis: a text with any of these characters can make the drawing fail. -/
theorem C29_line_break : ∀ c ∈ lineEnds, ∃ (g : Grid String), g.Reachable ∧
    (∀ cell ∈ g.cells, ∀ x ∈ drawDemoText cell, x ∈ lineEnds → x = c) ∧ draw drawDemoText g = .error .indexError := by
  intro e he
  refine ⟨Grid.run [.set (.tuple [.int 1, .int 1]) ⟨some (String.ofList ['a', e, 'b']), none, none, 1, 1, 1, 1⟩,
    .set (.tuple [.int 2, .int 1]) ⟨some "c", none, none, 1, 1, 1, 1⟩], ⟨_, rfl⟩, ?_⟩
  revert e
  decide +kernel

/-- the nine characters drawn in the middle of the tile at coordinate `p` of a drawing whose top left tile is at `bb.min` -/
def tileText (lines : List (List Char)) (bb : Box) (p : Coord) : Option (List Char) :=
  (lines[2 * (p.y - bb.min.y).toNat + 1]?).map (fun l => (l.drop (12 * (p.x - bb.min.x).toNat + 2)).take 9)

/-- the column and row in the middle of a box -/
def middle (b : Box) : Coord := ⟨(b.min.x + b.max.x) / 2, (b.min.y + b.max.y) / 2⟩

/-- `s` centred in nine characters: as many spaces on the left as on the right, or one more on the right; cut after nine characters -/
def Centred (s t : List Char) : Prop :=
  t.length = 9 ∧ (9 ≤ s.length → t = s.take 9) ∧
  (s.length ≤ 9 → ∃ a b, t = List.replicate a ' ' ++ s ++ List.replicate b ' ' ∧ (b = a ∨ b = a + 1))

theorem centre9_centred (s : List Char) : Centred s (centre9 s) := by
  refine ⟨centre9_length s, ?_, ?_⟩
  · intro h
    have : 9 - s.length = 0 := by omega
    simp [centre9, this]
  · intro h
    refine ⟨(9 - s.length) / 2, (9 - s.length) - (9 - s.length) / 2, ?_, by omega⟩
    unfold centre9
    apply List.take_of_length_le
    simp; omega

theorem drop_getElem? {α : Type} (l : List α) (n i : Nat) (m rest : List α) (h : l.drop n = m ++ rest) (hi : i < m.length) :
    l[n + i]? = m[i]? := by
  have : l[n + i]? = (l.drop n)[i]? := by rw [List.getElem?_drop]
  rw [this, h, List.getElem?_append_left hi]

/-- the three lines of the tile at a coordinate -/
theorem drawing_tile (g : Grid γ) (hinv : g.Inv) (text : Cell γ → List Char) (ht : ∀ c ∈ g.cells, NoBreak (text c))
    (bb : Box) (hbb : g.boundingBox = .ok (some bb)) (hv : bb.Valid) (p : Coord) (hp : InBox p bb) :
    (∃ l rest, ((pyRange bb.min.y (bb.max.y + 1)).flatMap (rowText text g bb))[2 * (p.y - bb.min.y).toNat]? = some l ∧
      l.drop (12 * (p.x - bb.min.x).toNat) = lineTop (leftOf g p) (topOf g p) (decide (bb.max.x = p.x)) ++ rest) ∧
    (∃ l rest, ((pyRange bb.min.y (bb.max.y + 1)).flatMap (rowText text g bb))[2 * (p.y - bb.min.y).toNat + 1]? = some l ∧
      l.drop (12 * (p.x - bb.min.x).toNat) = lineMid (leftOf g p) (decide (bb.max.x = p.x)) (shownTitle text g p) ++ rest) ∧
    (bb.max.y = p.y → ∃ l rest, ((pyRange bb.min.y (bb.max.y + 1)).flatMap (rowText text g bb))[2 * (p.y - bb.min.y).toNat + 2]? = some l ∧
      l.drop (12 * (p.x - bb.min.x).toNat) = lineBot (leftOf g p) (decide (bb.max.x = p.x)) ++ rest) := by
  obtain ⟨_, _, _, hrow⟩ := drawing_shape g hinv text ht bb hbb hv
  unfold InBox at hp
  obtain ⟨rest, hrest⟩ := hrow p.y (by omega) (by omega)
  have k1 := line_piece bb.min.x bb.max.x p.x (by omega) (by omega)
    (fun x => lineTop (leftOf g ⟨x, p.y⟩) (topOf g ⟨x, p.y⟩) (decide (bb.max.x = x))) (fun x => by rw [lineTop_length]; simp)
  have k2 := line_piece bb.min.x bb.max.x p.x (by omega) (by omega)
    (fun x => lineMid (leftOf g ⟨x, p.y⟩) (decide (bb.max.x = x)) (shownTitle text g ⟨x, p.y⟩))
    (fun x => by rw [lineMid_length _ _ _ (shownTitle_length _ _ _)]; simp)
  have k3 := line_piece bb.min.x bb.max.x p.x (by omega) (by omega)
    (fun x => lineBot (leftOf g ⟨x, p.y⟩) (decide (bb.max.x = x))) (fun x => by rw [lineBot_length]; simp)
  obtain ⟨r1, k1⟩ := k1
  obtain ⟨r2, k2⟩ := k2
  obtain ⟨r3, k3⟩ := k3
  refine ⟨⟨_, r1, ?_, k1⟩, ⟨_, r2, ?_, k2⟩, fun hb => ⟨_, r3, ?_, k3⟩⟩
  · exact drop_getElem? _ _ 0 _ _ hrest (by simp [rowText])
  · exact drop_getElem? _ _ 1 _ _ hrest (by simp [rowText])
  · rw [drop_getElem? _ _ 2 _ _ hrest (by simp [rowText, hb])]
    simp [rowText, hb]

theorem middle_in (b : Box) (h : b.Valid) : InBox (middle b) b := by
  unfold Box.Valid at h; unfold InBox middle; simp only; omega

theorem find_cover (cells : List (Cell γ)) (hd : DisjointCells cells) (c : Cell γ) (hc : c ∈ cells) (p : Coord) (hp : InBox p c.box) :
    ∃ c', cells.find? (·.hasCoord p) = some c' ∧ (c' = c) := by
  induction cells with
  | nil => simp at hc
  | cons d cells ih =>
    rw [List.find?_cons]
    unfold DisjointCells at hd
    rw [List.pairwise_cons] at hd
    by_cases hdp : d.hasCoord p = true
    · rw [hdp]
      refine ⟨d, rfl, ?_⟩
      rcases List.mem_cons.mp hc with rfl | hc
      · rfl
      · exact absurd ⟨p, (hasCoord_iff d.box p).mp hdp, hp⟩ (hd.1 c hc)
    · rw [Bool.not_eq_true] at hdp
      rw [hdp]
      rcases List.mem_cons.mp hc with rfl | hc
      · have := (hasCoord_iff c.box p).mpr hp
        rw [show c.box.hasCoord p = c.hasCoord p from rfl, hdp] at this; cases this
      · exact ih hd.2 hc

theorem text_drawn_once_of_inv (g : Grid γ) (hg : g.Inv) (hd : DisjointCells g.cells) (text : Cell γ → List Char)
    (ht : ∀ c ∈ g.cells, SingleLine (text c)) (bb : Box) (hbb : g.boundingBox = .ok (some bb)) :
    ∃ lines, draw text g = .ok (['\n'].intercalate lines) ∧ (∀ l ∈ lines, '\n' ∉ l) ∧
      (lines.length : Int) = 2 * bb.height + 1 ∧ (∀ l ∈ lines, (l.length : Int) = 12 * bb.width + 1) ∧
      (∀ c ∈ g.cells, InBox (middle c.box) c.box ∧ ∃ t, tileText lines bb (middle c.box) = some t ∧ Centred (text c) t) ∧
      (∀ p, InBox p bb → (∀ c ∈ g.cells, p ≠ middle c.box) → tileText lines bb p = some (List.replicate 9 ' ')) := by
  rcases boundingBox_inv g hg with ⟨_, h1⟩ | ⟨bb', _, h2, hv, hcov⟩
  · rw [h1] at hbb; cases hbb
  rw [h2] at hbb
  injection hbb with hbb; injection hbb with hbb; subst hbb
  obtain ⟨e1, e2, e3, _⟩ := drawing_shape g hg text (fun c hc => (ht c hc).noBreak) bb' h2 hv
  have tile : ∀ p, InBox p bb' →
      tileText ((pyRange bb'.min.y (bb'.max.y + 1)).flatMap (rowText text g bb')) bb' p = some (shownTitle text g p) := by
    intro p hp
    obtain ⟨_, ⟨l, rest, hl, hdrop⟩, _⟩ := drawing_tile g hg text (fun c hc => (ht c hc).noBreak) bb' h2 hv p hp
    unfold tileText
    rw [hl, Option.map_some, ← List.drop_drop, hdrop]
    have hlen := shownTitle_length text g p
    have : (lineMid (leftOf g p) (decide (bb'.max.x = p.x)) (shownTitle text g p) ++ rest).drop 2 =
        shownTitle text g p ++ (' ' :: (if decide (bb'.max.x = p.x) then ['|'] else []) ++ rest) := by
      simp [lineMid]
    rw [this, List.take_left' hlen]
  rw [joinLines_eq] at e1
  refine ⟨_, e1, fun l hl => (e3 l hl).2, e2, fun l hl => (e3 l hl).1, ?_, ?_⟩
  · intro c hc
    have hcv := (hg.valid c hc)
    have hm := middle_in c.box hcv
    refine ⟨hm, _, tile _ ?_, ?_⟩
    · exact hcov.1 c hc _ hm
    · obtain ⟨c', hf, rfl⟩ := find_cover g.cells hd c hc _ hm
      unfold shownTitle shownBox shownText
      rw [hf]
      rw [if_pos ⟨rfl, rfl⟩]
      exact centre9_centred _
  · intro p hp hno
    rw [tile p hp]
    unfold shownTitle shownBox shownText
    cases hf : g.cells.find? (·.hasCoord p) with
    | none =>
      simp only
      split <;> rfl
    | some c =>
      simp only
      rw [if_neg]
      intro h
      apply hno c (List.mem_of_find?_eq_some hf)
      cases p
      simp only at h
      simp [middle, h.1, h.2]

/-- **C30**: in the drawing of a grid of disjoint cells whose texts are single lines, the text of each cell, centred, is at the
middle of the cell, and every other tile of the bounding box is blank. -/
theorem C30_text_drawn_once (g : Grid γ) (hg : g.Reachable) (hd : DisjointCells g.cells) (text : Cell γ → List Char)
    (ht : ∀ c ∈ g.cells, SingleLine (text c)) (bb : Box) (hbb : g.boundingBox = .ok (some bb)) :
    ∃ lines, draw text g = .ok (['\n'].intercalate lines) ∧ (∀ l ∈ lines, '\n' ∉ l) ∧
      (∀ c ∈ g.cells, InBox (middle c.box) c.box ∧ ∃ t, tileText lines bb (middle c.box) = some t ∧ Centred (text c) t) ∧
      (∀ p, InBox p bb → (∀ c ∈ g.cells, p ≠ middle c.box) → tileText lines bb p = some (List.replicate 9 ' '))  := by
  obtain ⟨lines, e1, e2, -, -, e3, e4⟩ := text_drawn_once_of_inv g hg.inv hd text ht bb hbb
  exact ⟨lines, e1, e2, e3, e4⟩

example : drawDemo.Reachable ∧ DisjointCells drawDemo.cells ∧ (∀ c ∈ drawDemo.cells, SingleLine (drawDemoText c)) ∧
    drawDemo.boundingBox = .ok (some ⟨⟨1, 1⟩, ⟨3, 2⟩⟩) :=
  ⟨⟨_, rfl⟩, by
      have : ∀ a b : Cell String, (a.box.intersect b.box = false ∧ ¬ (a.box.min.x ≤ b.box.max.x ∧ b.box.min.x ≤ a.box.max.x ∧ a.box.min.y ≤ b.box.max.y ∧ b.box.min.y ≤ a.box.max.y)) → ¬ Overlap a.box b.box := by
        rintro a b ⟨_, h⟩ ⟨q, h1, h2⟩
        apply h; unfold InBox at h1 h2; omega
      unfold DisjointCells
      exact List.Pairwise.imp (fun h => this _ _ h) (by decide +kernel), by unfold SingleLine; decide +kernel, by decide +kernel⟩

/-- the character at a position of a drawing -/
def charAt (lines : List (List Char)) (row col : Nat) : Option Char := (lines[row]?).bind (fun l => l[col]?)

/-- a vertical border is due on the left of `p`: `p` is in the first column of its cell, or in no cell -/
def LeftBorder (g : Grid γ) (p : Coord) : Prop := ∀ c ∈ g.cells, InBox p c.box → c.box.min.x = p.x
/-- a horizontal border is due on top of `p`: `p` is in the first row of its cell, or in no cell -/
def TopBorder (g : Grid γ) (p : Coord) : Prop := ∀ c ∈ g.cells, InBox p c.box → c.box.min.y = p.y

theorem leftOf_iff (g : Grid γ) (hd : DisjointCells g.cells) (p : Coord) : leftOf g p = true ↔ LeftBorder g p := by
  unfold leftOf LeftBorder
  rw [decide_eq_true_eq]
  constructor
  · intro h c hc hp
    obtain ⟨c', hf, rfl⟩ := find_cover g.cells hd c hc p hp
    unfold shownBox at h; rw [hf] at h; exact h
  · intro h
    unfold shownBox
    cases hf : g.cells.find? (·.hasCoord p) with
    | none => rfl
    | some c =>
      have := List.find?_some hf
      exact h c (List.mem_of_find?_eq_some hf) ((hasCoord_iff c.box p).mp this)

theorem topOf_iff (g : Grid γ) (hd : DisjointCells g.cells) (p : Coord) : topOf g p = true ↔ TopBorder g p := by
  unfold topOf TopBorder
  rw [decide_eq_true_eq]
  constructor
  · intro h c hc hp
    obtain ⟨c', hf, rfl⟩ := find_cover g.cells hd c hc p hp
    unfold shownBox at h; rw [hf] at h; exact h
  · intro h
    unfold shownBox
    cases hf : g.cells.find? (·.hasCoord p) with
    | none => rfl
    | some c =>
      have := List.find?_some hf
      exact h c (List.mem_of_find?_eq_some hf) ((hasCoord_iff c.box p).mp this)

theorem char_of_drop (lines : List (List Char)) (r n i : Nat) (l m rest : List Char) (h1 : lines[r]? = some l)
    (h2 : l.drop n = m ++ rest) (hi : i < m.length) : charAt lines r (n + i) = m[i]? := by
  unfold charAt
  rw [h1]
  exact drop_getElem? l n i m rest h2 hi

/-- **C59**: in the drawing of a grid of disjoint cells, for each coordinate of the bounding box: the character on the left of
the text is a bar when a cell starts at this column (or the coordinate is free) and a space otherwise; the eleven characters above are dashes
when a cell starts at this row (or the coordinate is free) and spaces otherwise; the drawing is closed by bars on the right and by dashes at the bottom. -/
theorem C59_borders (g : Grid γ) (hg : g.Reachable) (hd : DisjointCells g.cells) (text : Cell γ → List Char)
    (ht : ∀ c ∈ g.cells, SingleLine (text c)) (bb : Box) (hbb : g.boundingBox = .ok (some bb)) :
    ∃ lines, draw text g = .ok (['\n'].intercalate lines) ∧ (∀ l ∈ lines, '\n' ∉ l) ∧
      ∀ p, InBox p bb →
        (LeftBorder g p → charAt lines (2 * (p.y - bb.min.y).toNat + 1) (12 * (p.x - bb.min.x).toNat) = some '|') ∧
        (¬ LeftBorder g p → charAt lines (2 * (p.y - bb.min.y).toNat + 1) (12 * (p.x - bb.min.x).toNat) = some ' ') ∧
        (∀ i, 1 ≤ i → i ≤ 11 →
          (TopBorder g p → charAt lines (2 * (p.y - bb.min.y).toNat) (12 * (p.x - bb.min.x).toNat + i) = some '-') ∧
          (¬ TopBorder g p → charAt lines (2 * (p.y - bb.min.y).toNat) (12 * (p.x - bb.min.x).toNat + i) = some ' ') ∧
          (p.y = bb.max.y → charAt lines (2 * (p.y - bb.min.y).toNat + 2) (12 * (p.x - bb.min.x).toNat + i) = some '-')) ∧
        (p.x = bb.max.x → charAt lines (2 * (p.y - bb.min.y).toNat + 1) (12 * (p.x - bb.min.x).toNat + 12) = some '|') := by
  rcases boundingBox_inv g hg.inv with ⟨_, h1⟩ | ⟨bb', _, h2, hv, hcov⟩
  · rw [h1] at hbb; cases hbb
  rw [h2] at hbb
  injection hbb with hbb; injection hbb with hbb; subst hbb
  obtain ⟨e1, e2, e3, _⟩ := drawing_shape g hg.inv text (fun c hc => (ht c hc).noBreak) bb' h2 hv
  rw [joinLines_eq] at e1
  refine ⟨_, e1, fun l hl => (e3 l hl).2, ?_⟩
  intro p hp
  obtain ⟨⟨l1, r1, a1, b1⟩, ⟨l2, r2, a2, b2⟩, h3⟩ := drawing_tile g hg.inv text (fun c hc => (ht c hc).noBreak) bb' h2 hv p hp
  have hlen2 := lineMid_length (leftOf g p) (decide (bb'.max.x = p.x)) _ (shownTitle_length text g p)
  have hlen1 := lineTop_length (leftOf g p) (topOf g p) (decide (bb'.max.x = p.x))
  refine ⟨?_, ?_, ?_, ?_⟩
  · intro h
    have := char_of_drop _ _ _ 0 _ _ _ a2 b2 (by omega)
    refine Eq.trans this ?_
    rw [(leftOf_iff g hd p).mpr h]; rfl
  · intro h
    have hl : leftOf g p = false := by rw [← Bool.not_eq_true, leftOf_iff g hd p]; exact h
    have := char_of_drop _ _ _ 0 _ _ _ a2 b2 (by omega)
    refine Eq.trans this ?_
    rw [hl]; rfl
  · intro i hi1 hi2
    have hc := char_of_drop _ _ _ i _ _ _ a1 b1 (by omega)
    obtain ⟨j, rfl⟩ : ∃ j, i = j + 1 := ⟨i - 1, by omega⟩
    refine ⟨?_, ?_, ?_⟩
    · intro h
      rw [hc, (topOf_iff g hd p).mpr h]
      unfold lineTop
      rw [if_pos rfl, List.cons_append, List.getElem?_cons_succ, List.getElem?_append_left (by simp; omega), List.getElem?_replicate_of_lt (by omega)]
    · intro h
      have hl : topOf g p = false := by rw [← Bool.not_eq_true, topOf_iff g hd p]; exact h
      rw [hc, hl]
      unfold lineTop
      rw [if_neg (by simp), List.cons_append, List.getElem?_cons_succ, List.getElem?_append_left (by simp; omega), List.getElem?_replicate_of_lt (by omega)]
    · intro hy
      obtain ⟨l3, r3, a3, b3⟩ := h3 hy.symm
      have hlen3 := lineBot_length (leftOf g p) (decide (bb'.max.x = p.x))
      rw [char_of_drop _ _ _ (j + 1) _ _ _ a3 b3 (by omega)]
      unfold lineBot
      rw [List.cons_append, List.getElem?_cons_succ, List.getElem?_append_left (by simp; omega), List.getElem?_replicate_of_lt (by omega)]
  · intro hx
    rw [decide_eq_true hx.symm, if_pos rfl] at hlen2
    rw [decide_eq_true hx.symm] at b2
    rw [char_of_drop _ _ _ 12 _ _ _ a2 b2 (by omega)]
    unfold lineMid
    simp only [List.getElem?_cons_succ]
    rw [List.getElem?_append_right (by rw [shownTitle_length]; omega), shownTitle_length]
    rfl

example : LeftBorder drawDemo ⟨1, 1⟩ ∧ ¬ LeftBorder drawDemo ⟨2, 1⟩ ∧ TopBorder drawDemo ⟨2, 2⟩ ∧ ¬ TopBorder drawDemo ⟨3, 2⟩ := by
  unfold LeftBorder TopBorder
  decide +kernel

end Benker
