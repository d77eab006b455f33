import Verif.Props.WordShortFormex
import Verif.Props.Accepted

/-! C111: the Word tables with short rows are converted. -/

namespace Benker
open PyM CalsSpec FmxSpec Benker.Shown Accepted

/-- **C111**, success to CALS: a Word table whose rows may be short, whose number of columns is told, is always converted to CALS, if the unit of the widths and the orientation of the
page are known ones. -/
theorem C111_converted_to_cals (cfg : Ooxml.Config) (bc : Cals.Config) (following : List Node) (styles : Node → Styles) (nature : Node → String) (W : Nat) (tbl : Node)
    (h : OoxmlSpec.ShortTable cfg (Convert.firstSectList following) styles nature W tbl)
    (hu : KnownUnit bc.widthUnit) (horient : KnownOrientation (Convert.firstSectList following)) :
    ∃ tree, (Convert.ooxml2cals cfg bc).convert following tbl = .ok tree := by
  obtain ⟨t, s', e, _⟩ := Ooxml.C111_short_rows cfg _ styles nature W tbl h PState.init
  exact (C87_word_to_cals cfg bc following tbl hu horient).mpr ⟨t, by unfold eval; rw [e]⟩

/-- **C111**, success to Formex: so is it to Formex; if titles are looked for, the table has a row, and the cells of the table have a paragraph or a table, as Word requires. -/
theorem C111_converted_to_formex (cfg : Ooxml.Config) (bc : Fmx.Config) (following : List Node) (styles : Node → Styles) (nature : Node → String) (W : Nat) (tbl : Node)
    (h : OoxmlSpec.ShortTable cfg (Convert.firstSectList following) styles nature W tbl)
    (hcals : bc.useCals = true → KnownUnit bc.widthUnit ∧ KnownOrientation (Convert.firstSectList following))
    (htitle : bc.detectTitles = true → OoxmlSpec.kids ["tr"] tbl ≠ [] ∧
      ∀ tr ∈ OoxmlSpec.kids ["tr"] tbl, ∀ tc ∈ OoxmlSpec.kids ["tc"] tr, OoxmlSpec.kids ["p", "tbl"] tc ≠ []) :
    ∃ tree, (Convert.ooxml2formex cfg bc).convert following tbl = .ok tree := by
  obtain ⟨t, s', e, hc⟩ := Ooxml.C111_short_rows cfg _ styles nature W tbl h PState.init
  refine (C87_word_to_formex cfg bc following tbl hcals t (by unfold eval; rw [e])).mpr ?_
  intro hd
  obtain ⟨hne, hp⟩ := htitle hd
  constructor
  · obtain ⟨t', s2, e', _, hcov⟩ := Ooxml.C111_rectangle cfg _ styles nature W tbl h PState.init
    rw [e] at e'
    cases e'
    have hW := h.wide
    have hn : 1 ≤ (OoxmlSpec.kids ["tr"] tbl).length := List.length_pos_of_ne_nil hne
    exact (hcov ⟨1, 1⟩).mpr (by simp only; omega)
  · intro _ c hcc _
    rw [show t.cells = t.grid.cells from rfl, hc] at hcc
    rcases completed_cases _ _ _ hcc with hcc | hcc
    · obtain ⟨row, hrow, tc, htc, _, e1, _⟩ := wanted_styles _ _ _ _ _ hcc
      obtain ⟨tr, htr, rfl⟩ := List.mem_map.mp hrow
      have hk := hp tr htr tc htc
      right; right; left
      cases hl : OoxmlSpec.kids ["p", "tbl"] tc with
      | nil => exact absurd hl hk
      | cons n l =>
        refine ⟨n.setTail none, l.map (·.setTail none), ?_⟩
        rw [e1, OoxmlSpec.paragraphs, hl]
        simp
    · exact .inl (.inl hcc)

open Ooxml OoxmlSpec in
/-- not vacuous: rows of two, one and three columns, in a table of three; titles and CALS attributes are asked for -/
example : ∃ bc : Fmx.Config, bc.detectTitles = true ∧ bc.useCals = true ∧ ShortTable wConfig (Convert.firstSectList []) stylesOf natureOf 3 shortDemo ∧
    KnownUnit bc.widthUnit ∧ KnownOrientation (Convert.firstSectList []) ∧ kids ["tr"] shortDemo ≠ [] ∧
    ∀ tr ∈ kids ["tr"] shortDemo, ∀ tc ∈ kids ["tc"] tr, kids ["p", "tbl"] tc ≠ [] := by
  have h3 : (kids ["tr"] shortDemo).length = 3 := by decide +kernel
  have hall : (kids ["tr"] shortDemo).all (fun tr => (kids ["tc"] tr).all (fun tc => !(kids ["p", "tbl"] tc).isEmpty)) = true := by decide +kernel
  refine ⟨⟨true, true, none, ['m', 'm'], id⟩, rfl, rfl, shortDemo_good, ⟨"mm", by decide +kernel, by decide +kernel⟩, ?_, ?_, ?_⟩
  · intro s hs; cases hs
  · intro e
    rw [e] at h3; cases h3
  · intro tr htr tc htc e
    have := List.all_eq_true.mp (List.all_eq_true.mp hall tr htr) tc htc
    rw [e] at this
    cases this

end Benker
