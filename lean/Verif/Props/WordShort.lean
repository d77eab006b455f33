import Verif.Props.OoxmlLooks
import Verif.Props.Conversion
import Verif.Spec.WordShortPicture

/-! C111: Word tables whose rows may have fewer columns than the table. -/

namespace Benker.Ooxml
open PyM Table OoxmlSpec

/-- the rows of the table can be read -/
theorem short_rows {cfg : Config} {sect : Option Node} {styles : Node → Styles} {nature : Node → String} {W : Nat} {tbl : Node}
    (h : ShortTable cfg sect styles nature W tbl) {tr : Node} (htr : tr ∈ kids ["tr"] tbl) : ShortRow cfg styles nature W tr := by
  obtain ⟨head, rows, hch, hhead, hrows⟩ := h.children
  unfold kids at htr
  rw [hch] at htr
  have hm := List.mem_filter.mp htr
  have htag : tr.tag? = some (name "tr") := by simpa using hm.2
  rcases List.mem_append.mp hm.1 with h1 | h1
  · exfalso
    rcases hhead tr h1 with hq | ⟨ht, _⟩
    · exact quiet_tag hq "tr" (by simp) htag
    · rw [htag] at ht; exact name_ne (by decide) (Option.some.inj ht)
  · rcases hrows tr h1 with hq | ⟨_, hg⟩
    · exact absurd htag (quiet_tag hq "tr" (by simp))
    · exact hg

/-- **C111.** For every Word table whose rows may have fewer columns than the table, when the number of columns is told by `w:tblGrid` or by the first row: the reading
succeeds, and the cells are those of the rows, with their vertical merges, followed in each row by empty cells of one column, up to the last column. -/
theorem C111_short_rows (cfg : Config) (sect : Option Node) (styles : Node → Styles) (nature : Node → String) (W : Nat) (tbl : Node)
    (h : ShortTable cfg sect styles nature W tbl) (s : PState) :
    ∃ t s', parseTable cfg sect tbl s = (.ok (some t), s') ∧
      t.grid.cells = completed W paragraphs styles 1 ((kids ["tr"] tbl).map (fun tr => (nature tr, kids ["tc"] tr))) := by
  obtain ⟨t, s', _, _, h1, h2, _⟩ := word_short cfg sect styles nature W tbl h s
  exact ⟨t, s', h1, h2⟩

/-- **C111**, the rectangle: the cells cover exactly the columns and the rows of the table, and do not overlap. -/
theorem C111_rectangle (cfg : Config) (sect : Option Node) (styles : Node → Styles) (nature : Node → String) (W : Nat) (tbl : Node)
    (h : ShortTable cfg sect styles nature W tbl) (s : PState) :
    ∃ t s', parseTable cfg sect tbl s = (.ok (some t), s') ∧ DisjointCells t.grid.cells ∧
      ∀ p : Coord, Covered t.grid.cells p ↔ 1 ≤ p.x ∧ p.x ≤ W ∧ 1 ≤ p.y ∧ p.y ≤ (kids ["tr"] tbl).length := by
  obtain ⟨t, s', _, _, h1, _, _, h4, _⟩ := word_short cfg sect styles nature W tbl h s
  refine ⟨t, s', h1, h4.disjoint, fun p => ?_⟩
  rw [h4.covered]
  omega

/-- **C111**, one place: in a row with fewer columns than the table, each of the places on its right is an empty cell of one column and one row, without styles, of the nature of
the row. -/
theorem C111_missing (cfg : Config) (sect : Option Node) (styles : Node → Styles) (nature : Node → String) (W : Nat) (tbl : Node)
    (h : ShortTable cfg sect styles nature W tbl) (s : PState) (i : Nat) (tr : Node) (htr : (kids ["tr"] tbl)[i]? = some tr)
    (x : Int) (h1 : total (kids ["tc"] tr) < x) (h2 : x ≤ W) :
    ∃ t s', parseTable cfg sect tbl s = (.ok (some t), s') ∧
      (⟨none, [], some (nature tr), ⟨⟨x, (i : Int) + 1⟩, ⟨x, (i : Int) + 1⟩⟩⟩ : Cell Content) ∈ t.grid.cells := by
  obtain ⟨t, s', e, hc⟩ := C111_short_rows cfg sect styles nature W tbl h s
  refine ⟨t, s', e, ?_⟩
  rw [hc]
  have hpos : 0 ≤ total (kids ["tc"] tr) := by
    refine total_nonneg ?_
    intro c hc
    have hm := List.mem_of_getElem? htr
    have hg := (short_rows h hm).cells
    unfold kids at hc
    rw [List.mem_filter] at hc
    have ht : c.tag? = some (name "tc") := by simpa using hc.2
    rcases hg c hc.1 with hq | ⟨_, hg⟩
    · exact absurd ht (quiet_tag hq "tc" (by simp))
    · exact hg.wide
  have key : ∀ (trs : List Node) (i : Nat) (r : Int), trs[i]? = some tr →
      (⟨none, [], some (nature tr), ⟨⟨x, r + i⟩, ⟨x, r + i⟩⟩⟩ : Cell Content) ∈ completed W paragraphs styles r (trs.map (fun tr => (nature tr, kids ["tc"] tr))) := by
    intro trs
    induction trs with
    | nil => intro i r h; simp at h
    | cons t0 trs ih =>
      intro i r h
      rw [List.map_cons]
      simp only [completed, List.mem_append]
      cases i with
      | zero =>
        simp only [List.getElem?_cons_zero, Option.some.injEq] at h
        subst h
        refine .inl (.inr (List.mem_map.mpr ⟨(x - 1 - total (kids ["tc"] t0)).toNat, List.mem_range.mpr (by omega), ?_⟩))
        have e : total (kids ["tc"] t0) + ((x - 1 - total (kids ["tc"] t0)).toNat : Int) + 1 = x := by omega
        rw [e]; simp
      | succ i =>
        have := ih i (r + 1) h
        refine .inr ?_
        have e : r + ((i + 1 : Nat) : Int) = r + 1 + i := by omega
        rw [e]; exact this
  have := key _ i 1 htr
  have e : (1 : Int) + i = i + 1 := by omega
  rw [e] at this
  exact this

/-- **C111**, the rows: there is one row for each `w:tr`, of the same kind, with its revision marks. -/
theorem C111_rows (cfg : Config) (sect : Option Node) (styles : Node → Styles) (nature : Node → String) (W : Nat) (tbl : Node)
    (h : ShortTable cfg sect styles nature W tbl) (s : PState) :
    ∃ t s' rows, parseTable cfg sect tbl s = (.ok (some t), s') ∧ eval (Table.views .row) t = .ok rows ∧
      rows.length = (kids ["tr"] tbl).length ∧
      ∀ (i : Nat) (tr : Node), (kids ["tr"] tbl)[i]? = some tr → ∃ row, rows[i]? = some row ∧ row.pos = i + 1 ∧
        row.nature = some (natureOfRow tr) ∧ RowMarks tr row.styles := by
  obtain ⟨t, s', st, nat, h1, h2, h3, h4, h5⟩ := word_short cfg sect styles nature W tbl h s
  refine ⟨t, s', t.baseViews .row, h1, ?_, h4.rows, ?_⟩
  · unfold eval; rw [Table.views_run .row t h4.inv.grid]
  · intro i tr hi
    obtain ⟨vs, v, e1, e2, e3, e4⟩ := h5.rows i (some (nature tr), rowLooks cfg tr) (by simp [rowsLooks, List.getElem?_map, hi])
    have eb : t.baseViews .row = vs := by unfold baseViews; rw [e1]; rfl
    have hg := short_rows h (List.mem_of_getElem? hi)
    refine ⟨v, by rw [eb]; exact e2, ?_, ?_, ?_⟩
    · have hd := (base_describes h4.inv .row).pos i
      rw [eb] at hd
      obtain ⟨hl, he⟩ := List.getElem?_eq_some_iff.mp e2
      rw [← he]; exact hd hl
    · rw [e3]
      show some (nature tr) = _
      rw [rowNature_kind hg.nature]
    · rw [e4]; exact rowLooks_marks cfg tr hg.height

/-! ### examples -/

/-- a table of three columns told by `w:tblGrid`: the rows have two, one and three columns; a cell goes down -/
def shortDemo : Node := wEl "tbl" [] [
  wEl "tblPr" [] [],
  wEl "tblGrid" [] [wEl "gridCol" [("w", "20")] [], wEl "gridCol" [("w", "20")] [], wEl "gridCol" [("w", "20")] []],
  wEl "tr" [] [tcDemo none (some "restart") "a", tcDemo none none "b"],
  wEl "tr" [] [tcDemo none (some "continue") "x"],
  wEl "tr" [] [tcDemo none none "c", tcDemo (some "2") none "d"]]

theorem shortDemo_good : ShortTable wConfig none stylesOf natureOf 3 shortDemo := by
  have tcs : ∀ a m x, (tcDemo a m x).tag? = some (name "tc") := fun _ _ _ => rfl
  refine ⟨rfl, ⟨_, rfl⟩, by decide, by decide +kernel, fun _ _ => .inr (by decide +kernel), ?_, ?_⟩
  · refine ⟨shortDemo.children.take 2, shortDemo.children.drop 2, by simp, ?_, ?_⟩
    · intro c hc
      simp only [shortDemo, wEl, Node.children, List.take, List.mem_cons, List.not_mem_nil, or_false] at hc
      rcases hc with rfl | rfl
      · left; decide +kernel
      · right
        refine ⟨rfl, ⟨?_⟩⟩
        intro c hc
        simp only [Node.children, List.mem_cons, List.not_mem_nil, or_false] at hc
        rcases hc with rfl | rfl | rfl <;> exact .inr ⟨rfl, rfl, "20", 0, rfl, rfl⟩
    · intro c hc
      simp only [shortDemo, wEl, Node.children, List.drop, List.mem_cons, List.not_mem_nil, or_false] at hc
      rcases hc with rfl | rfl | rfl
      all_goals
        refine .inr ⟨rfl, ?_, by decide +kernel, by decide +kernel, ⟨_, rfl⟩⟩
        intro c hc
        simp only [Node.children, List.mem_cons, List.not_mem_nil, or_false] at hc
      · rcases hc with rfl | rfl <;> exact .inr ⟨tcs .., ⟨by decide +kernel, by decide +kernel, by decide +kernel, fun _ => by decide +kernel⟩⟩
      · rcases hc with rfl; exact .inr ⟨tcs .., ⟨by decide +kernel, by decide +kernel, by decide +kernel, fun _ => by decide +kernel⟩⟩
      · rcases hc with rfl | rfl <;> exact .inr ⟨tcs .., ⟨by decide +kernel, by decide +kernel, by decide +kernel, fun _ => by decide +kernel⟩⟩
  · decide +kernel

/-- not vacuous: the cells of the example; those at (3, 1), (2, 2) and (3, 2) are the empty ones -/
example : ((parseTable wConfig none shortDemo PState.init).1.toOption.map boxesOf) =
    some [(1, 1, 1, 2, "a"), (2, 1, 2, 1, "b"), (3, 1, 3, 1, ""), (2, 2, 2, 2, ""), (3, 2, 3, 2, ""), (1, 3, 1, 3, "c"), (2, 3, 3, 3, "d")] := by decide +kernel

/-- the first row has one column, the second one has two, and nothing tells that there are two columns -/
def holeDemo : Node := wEl "tbl" [] [
  wEl "tr" [] [tcDemo none none "a"],
  wEl "tr" [] [tcDemo none none "b", tcDemo none none "c"]]

/-- The hypothesis on the number of columns is needed: without `w:tblGrid`, a first row which is shorter than the second one is not completed, and nothing is at the place (2, 1). -/
theorem C111_hole_counterexample : ((parseTable wConfig none holeDemo PState.init).1.toOption.map boxesOf) =
    some [(1, 1, 1, 1, "a"), (1, 2, 1, 2, "b"), (2, 2, 2, 2, "c")] := by decide +kernel

end Benker.Ooxml

namespace Benker
open PyM CalsSpec FmxSpec Benker.Shown

open OoxmlSpec in
theorem short_lines (W : Nat) (styles : Node → Styles) (nature : Node → String) : ∀ (r : Int) (trs : List Node),
    All₂ (fun (b : Box × List Tok) (c : Cell Content) => c.box = b.1 ∧ contentToks c.content = b.2) ((shortLines W r trs).flatMap (·.cells))
      (completed W paragraphs styles r (trs.map (fun tr => (nature tr, kids ["tc"] tr))))
  | _, [] => .nil
  | r, tr :: trs => by
    rw [shortLines, List.flatMap_cons, List.map_cons, completed]
    refine All₂.append (All₂.append ?_ ?_) (short_lines W styles nature (r + 1) trs)
    · refine All₂.map_left (All₂.map_right ?_)
      generalize (place 0 (kids ["tc"] tr)).filter (fun s => !continues s.2) = l
      induction l with
      | nil => exact .nil
      | cons s l ih =>
        refine .cons ⟨?_, ?_⟩ ih
        · simp only [List.map_map]; rfl
        · unfold paragraphs
          simp only [contentToks, List.flatMap_map]
          rfl
    · refine All₂.map_left (All₂.map_right ?_)
      generalize List.range _ = l
      induction l with
      | nil => exact .nil
      | cons s l ih => exact .cons ⟨rfl, rfl⟩ ih

open OoxmlSpec in
theorem shortLines_get (W : Nat) : ∀ (r : Int) (trs : List Node) (i : Nat) (l : Line), (shortLines W r trs)[i]? = some l →
    ∃ tr, trs[i]? = some tr ∧ l.kind = natureOfRow tr ∧ ∀ c ∈ l.cells, c.1.min.y = r + i
  | _, [], i, l, h => by simp [shortLines] at h
  | r, tr :: trs, 0, l, h => by
    rw [shortLines] at h
    simp only [List.getElem?_cons_zero, Option.some.injEq] at h
    subst h
    refine ⟨tr, rfl, rfl, ?_⟩
    intro c hc
    rcases List.mem_append.mp hc with hc | hc
    all_goals
      obtain ⟨s, _, rfl⟩ := List.mem_map.mp hc
      simp
  | r, tr :: trs, i + 1, l, h => by
    rw [shortLines] at h
    obtain ⟨tr', h1, h2, h3⟩ := shortLines_get W (r + 1) trs i l h
    exact ⟨tr', h1, h2, fun c hc => by have := h3 c hc; omega⟩

open OoxmlSpec in
theorem shortLines_length (W : Nat) : ∀ (r : Int) (trs : List Node), (shortLines W r trs).length = trs.length
  | _, [] => rfl
  | r, tr :: trs => by rw [shortLines, List.length_cons, shortLines_length, List.length_cons]

/-- a table read from a Word document with short rows shows what the document shows -/
theorem short_shows (cfg : Ooxml.Config) (sect : Option Node) (styles : Node → Styles) (nature : Node → String) (W : Nat) (tbl : Node)
    (h : OoxmlSpec.ShortTable cfg sect styles nature W tbl) (hne : OoxmlSpec.kids ["tr"] tbl ≠ []) (s : PState) :
    ∃ (t : Table Content) (s' : PState) (rows cols : List (View Content)), Ooxml.parseTable cfg sect tbl s = (.ok (some t), s') ∧
      eval (Table.views .row) t = .ok rows ∧ eval (Table.views .col) t = .ok cols ∧ rows.length = (OoxmlSpec.kids ["tr"] tbl).length ∧ cols.length = W ∧
      t.Inv ∧ t.cells ≠ [] ∧ DisjointCells t.cells ∧ (∀ p : Coord, 1 ≤ p.x → p.x ≤ W → 1 ≤ p.y → p.y ≤ rows.length → Covered t.cells p) ∧
      (∀ r ∈ rows, r.owned.Pairwise (fun a b => a.min.x < b.min.x)) ∧ TableShows (shortPicture W tbl) rows := by
  obtain ⟨t, s', st, nat, h1, h2, h3, h4, h5⟩ := Ooxml.word_short cfg sect styles nature W tbl h s
  obtain ⟨t2, s2, rows, e1, e2, e3, e4⟩ := Ooxml.C111_rows cfg sect styles nature W tbl h s
  rw [h1] at e1
  cases e1
  have hi := h4.inv
  have hrows := views_eq hi e2
  have hdr : Describes .row t.grid.cells rows := by rw [hrows]; exact Table.base_describes hi .row
  have hdc : Describes .col t.grid.cells (t.baseViews .col) := Table.base_describes hi .col
  have hcols : eval (Table.views .col) t = .ok (t.baseViews .col) := by unfold eval; rw [Table.views_run .col t hi.grid]
  have hcov := h4.covered
  have hn : 1 ≤ (OoxmlSpec.kids ["tr"] tbl).length := List.length_pos_of_ne_nil hne
  have hW := h.wide
  have hfull : ∀ p : Coord, 1 ≤ p.x → p.x ≤ W → 1 ≤ p.y → p.y ≤ rows.length → Covered t.cells p := by
    intro p p1 p2 p3 p4
    rw [e3] at p4
    exact (hcov p).mpr (by omega)
  have hlen : (t.baseViews .col).length = W := h4.colsFull hn hW
  have hparsed : ParsedTable t := .word cfg sect tbl s t h.tag (by unfold eval; rw [h1])
  have hord := (C80_rows t hparsed rows e2).1.leftToRight
  have hown := owned_eq hi hdr hord
  refine ⟨t, s', rows, t.baseViews .col, h1, e2, hcols, e3, hlen, hi, ?_, h4.disjoint, hfull, hord, ?_⟩
  · intro e
    obtain ⟨c, hc, _⟩ := hfull ⟨1, 1⟩ (by simp) (by simp only; omega) (by simp) (by simp only; omega)
    rw [e] at hc; cases hc
  · have hl : (shortPicture W tbl).length = rows.length := by rw [shortPicture, shortLines_length, e3]
    have key : All₂ (fun (l : Line) (r : View Content) => All₂ (fun (b : Box × List Tok) (c : Cell Content) => c.box = b.1 ∧ contentToks c.content = b.2)
        l.cells r.owned) (shortPicture W tbl) rows := by
      refine all₂_unflat (fun l : Line => l.cells) (fun r : View Content => r.owned) (fun b => b.1.min.y) (fun c => c.box.min.y)
        (fun a b hab => by rw [hab.1]) _ _ 1 hl ?_ ?_ ?_
      · intro i l hl c hc
        obtain ⟨_, _, _, h3⟩ := shortLines_get W 1 _ i l hl
        exact h3 c hc
      · intro i r hr c' hc'
        obtain ⟨hlt, rfl⟩ := List.getElem?_eq_some_iff.mp hr
        have e1 : c'.box.min.y = rows[i].pos := ((hdr.owned _ (List.getElem_mem hlt) c').mp hc').2
        have e2 := hdr.pos i hlt
        omega
      · rw [show rows.flatMap (fun r => r.owned) = t.grid.cells from hown, h2]
        exact short_lines W styles nature 1 _
    have kinds : All₂ (fun (l : Line) (r : View Content) => r.nature = some l.kind) (shortPicture W tbl) rows := by
      refine all₂_of_get hl ?_
      intro i l r hl hr
      obtain ⟨tr, g1, g2, _⟩ := shortLines_get W 1 _ i l hl
      obtain ⟨row, g3, _, g4, _⟩ := e4 i tr g1
      rw [hr] at g3; cases g3
      rw [g4, g2]
    exact kinds.and key

/-- **C111**, Word to CALS: for every Word table whose rows may be short, whose number of columns is told, where no cell spans rows of different kinds, and whose contents have no
CALS element: if the conversion succeeds, its result is a CALS table drawn on the whole grid, with `colspec` elements for all the columns, which shows the same rows, with empty entries
at the places which miss. The rows are sorted by kind, as asked by the option of the builder; if they are already so, nothing moves. -/
theorem C111_word_to_cals (cfg : Ooxml.Config) (bc : Cals.Config) (ns : Option String) (u : List Char) (tg : Bool) (sorting : Option (List String)) (fl : Rat → Rat)
    (hcfg : Cals.Config.new ns u tg sorting fl = .ok bc)
    (following : List Node) (styles : Node → Styles) (nature : Node → String) (W : Nat) (tbl : Node)
    (h : OoxmlSpec.ShortTable cfg (Convert.firstSectList following) styles nature W tbl) (hne : OoxmlSpec.kids ["tr"] tbl ≠ [])
    (hone : OneKind (shortPicture W tbl)) (hplain : Without bc.ns calsNames (shortPicture W tbl))
    (tree : Node) (hconv : (Convert.ooxml2cals cfg bc).convert following tbl = .ok tree) :
    ∃ (d : CalsSpec.CalsDoc) (q : Picture), d.table = tree ∧ d.Nested bc.ns ∧ d.Drawn bc.ns W (OoxmlSpec.kids ["tr"] tbl).length ∧ d.Columns bc.ns W ∧
      CalsShows d q ∧ Regrouped bc.tgroupSorting (shortPicture W tbl) q ∧ (Grouped bc.tgroupSorting (shortPicture W tbl) → q = shortPicture W tbl) := by
  obtain ⟨t, s', rows, cols, h1, h2, h3, h4, h5, hi, h6, h7, h8, h9, h10⟩ := short_shows cfg _ styles nature W tbl h hne PState.init
  unfold Convert.ooxml2cals Convert.thenGenerate at hconv
  simp only at hconv
  have e : eval (Ooxml.parseTable cfg (Convert.firstSectList following) tbl) PState.init = .ok (some t) := by unfold eval; rw [h1]
  rw [e] at hconv
  subst h5
  rw [← h4]
  refine cals_shown hcfg hi h2 h3 h6 h7 h8 h9 h10 ?_ hone hplain hconv
  intro l hl
  obtain ⟨i, hi⟩ := List.mem_iff_getElem?.mp hl
  obtain ⟨tr, _, e, _⟩ := shortLines_get _ 1 _ i l hi
  rw [e]
  unfold OoxmlSpec.natureOfRow
  split <;> simp

open Ooxml OoxmlSpec in
/-- not vacuous: the table of the example is converted -/
example : ∃ (bc : Cals.Config) (tree : Node), Cals.Config.new none ['m', 'm'] false none id = .ok bc ∧
    ShortTable wConfig (Convert.firstSectList []) stylesOf natureOf 3 shortDemo ∧ kids ["tr"] shortDemo ≠ [] ∧ OneKind (shortPicture 3 shortDemo) ∧
    Without bc.ns calsNames (shortPicture 3 shortDemo) ∧ (Convert.ooxml2cals wConfig bc).convert [] shortDemo = .ok tree := by
  obtain ⟨tree, ht⟩ := ok_of (show ((Convert.ooxml2cals wConfig calsConfig).convert [] shortDemo).isOk = true by decide +kernel)
  refine ⟨calsConfig, tree, rfl, shortDemo_good, ?_, oneKind_of (by decide +kernel), without_of (by decide +kernel), ht⟩
  intro h
  have : (kids ["tr"] shortDemo).length = 3 := by decide +kernel
  rw [h] at this; cases this

end Benker
