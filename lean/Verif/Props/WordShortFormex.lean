import Verif.Props.WordShort
import Verif.Props.ToFormex

/-! C111: Word tables with short rows are completed by the conversion to Formex. -/

namespace Benker
open PyM CalsSpec FmxSpec Benker.Shown

theorem completed_cases {W : Nat} {content : Node → Option Content} {styles : Node → Styles} : ∀ (rows : List (String × List Node)) (r : Int) (c : Cell Content),
    c ∈ OoxmlSpec.completed W content styles r rows → c ∈ OoxmlSpec.wanted content styles r rows ∨ c.content = none := by
  intro rows
  induction rows with
  | nil => intro r c h; cases h
  | cons row rows ih =>
    intro r c h
    obtain ⟨n, tcs⟩ := row
    simp only [OoxmlSpec.completed, List.mem_append] at h
    simp only [OoxmlSpec.wanted, List.mem_append]
    rcases h with (h | h) | h
    · exact .inl (.inl h)
    · obtain ⟨k, _, rfl⟩ := List.mem_map.mp h
      exact .inr rfl
    · exact (ih _ c h).imp .inr id

theorem short_written_empty {cfg : Ooxml.Config} {sect : Option Node} {styles : Node → Styles} {nature : Node → String} {W : Nat} {tbl : Node}
    (h : OoxmlSpec.ShortTable cfg sect styles nature W tbl) {t : Table Content} {s' : PState}
    (h1 : Ooxml.parseTable cfg sect tbl PState.init = (.ok (some t), s')) :
    t.Reachable ∧ ∀ c ∈ t.cells, WrittenEmpty c → contentToks c.content = [] ∨ Blank (contentToks c.content) := by
  obtain ⟨t', s2, st, nat, g1, g2, -⟩ := Ooxml.word_short cfg _ styles nature W tbl h PState.init
  rw [h1] at g1
  cases g1
  have e : eval (Ooxml.parseTable cfg sect tbl) PState.init = .ok (some t) := by unfold eval; rw [h1]
  have hparsed : ParsedTable t := .word cfg _ tbl PState.init t h.tag e
  refine ⟨hparsed.tidy.1, ?_⟩
  intro c hc hw
  rw [show t.cells = t.grid.cells from rfl, g2] at hc
  rcases completed_cases _ _ _ hc with hc | hc
  · obtain ⟨row, hrow, tc, htc, hcont, e1, e2⟩ := wanted_styles _ _ _ _ _ hc
    rcases hw with e | e | e
    · rw [e]; exact .inl rfl
    · rw [e]; exact .inl rfl
    · right
      rw [e1]
      obtain ⟨tr, htr, rfl⟩ := List.mem_map.mp hrow
      have hgood := Ooxml.short_rows h htr
      have hcell : OoxmlSpec.GoodCell cfg styles tc := by
        have hm : tc ∈ OoxmlSpec.kids ["tc"] tr := htc
        unfold OoxmlSpec.kids at hm
        obtain ⟨m1, m2⟩ := List.mem_filter.mp hm
        rcases hgood.cells tc m1 with hq | ⟨_, hg⟩
        · exact absurd (by simpa using m2) (Ooxml.quiet_tag hq "tc" (by simp))
        · exact hg
      refine blank_of_empty (Classical.byContradiction fun hno => ?_)
      have := (Ooxml.cell_reads (hcell.style hcont)).filled hno
      rw [e2, this] at e
      cases e
  · rw [hc]; exact .inl rfl

/-- **C111**, Word to Formex: for every Word table whose rows may be short, whose number of columns is told, whose contents have no Formex table, and whose first row does not look like a
title (if titles are looked for): if the conversion succeeds, its result is a `TBL` element, which holds a `CORPUS` element of all the columns and rows, drawn on the whole grid, whose
rows are those of the Word table, in the same order, with empty cells at the places which miss. Only what has neither character nor image is lost. -/
theorem C111_word_to_formex (cfg : Ooxml.Config) (bc : Fmx.Config) (cals : Option String) (hcals : bc.useCals = true → cals = bc.calsNs)
    (following : List Node) (styles : Node → Styles) (nature : Node → String) (W : Nat) (tbl : Node)
    (h : OoxmlSpec.ShortTable cfg (Convert.firstSectList following) styles nature W tbl) (hne : OoxmlSpec.kids ["tr"] tbl ≠ [])
    (htitle : bc.detectTitles = true → NoTitle W (shortPicture W tbl))
    (hplain : Without none formexNames (shortPicture W tbl)) (hplain' : Without cals ["colspec"] (shortPicture W tbl))
    (tree : Node) (hconv : (Convert.ooxml2formex cfg bc).convert following tbl = .ok tree) :
    ∃ d : FmxDoc, tree.tag? = some (FmxSpec.name "TBL") ∧ tree.children = [d.corpus] ∧ d.notes = [] ∧ d.Nested none cals 0 (some tree) ∧
      d.Drawn none cals W (OoxmlSpec.kids ["tr"] tbl).length ∧ d.WidthKnown W ∧ d.Columns cals W ∧ FormexLines Blank (shortPicture W tbl) d.lines := by
  obtain ⟨t, s', rows, cols, h1, h2, h3, h4, h5, hi, h6, h7, h8, h9, h10⟩ := short_shows cfg _ styles nature W tbl h hne PState.init
  have e : eval (Ooxml.parseTable cfg (Convert.firstSectList following) tbl) PState.init = .ok (some t) := by unfold eval; rw [h1]
  unfold Convert.ooxml2formex Convert.thenGenerate at hconv
  simp only [e] at hconv
  subst h5
  rw [← h4]
  refine fmx_shown hcals (short_written_empty h h1).1 h2 h3 h6 h7 h8 h9 h10 ?_ htitle hplain hplain' Blank ?_ hconv
  · intro l hl
    obtain ⟨i, hi⟩ := List.mem_iff_getElem?.mp hl
    obtain ⟨tr, _, e, _⟩ := shortLines_get _ 1 _ i l hi
    rw [e]
    unfold OoxmlSpec.natureOfRow
    split <;> simp
  · exact (short_written_empty h h1).2

open Ooxml OoxmlSpec in
/-- not vacuous: the table of the example of C111 is converted -/
example : ∃ (bc : Fmx.Config) (tree : Node), bc.detectTitles = true ∧ ShortTable wConfig (Convert.firstSectList []) stylesOf natureOf 3 shortDemo ∧
    kids ["tr"] shortDemo ≠ [] ∧ NoTitle 3 (shortPicture 3 shortDemo) ∧ Without none formexNames (shortPicture 3 shortDemo) ∧
    Without bc.calsNs ["colspec"] (shortPicture 3 shortDemo) ∧ (Convert.ooxml2formex wConfig bc).convert [] shortDemo = .ok tree := by
  obtain ⟨tree, ht⟩ := ok_of (show ((Convert.ooxml2formex wConfig ⟨true, false, none, ['m', 'm'], id⟩).convert [] shortDemo).isOk = true by decide +kernel)
  refine ⟨⟨true, false, none, ['m', 'm'], id⟩, tree, rfl, shortDemo_good, ?_, noTitle_of (by decide +kernel), without_of (by decide +kernel),
    without_of (by decide +kernel), ht⟩
  intro h
  have : (kids ["tr"] shortDemo).length = 3 := by decide +kernel
  rw [h] at this; cases this

end Benker
