import Verif.Lemmas.FormexTwin
import Verif.Props.CalsParser

/-! Properties C47 (Formex) and C84: tables inside Formex tables. -/

namespace Benker
open PyM CalsP

/-- **C47**, Formex: the layout of a parsed table (positions, spans, styles and natures of the cells, rows and columns), or the exception,
is the same as with the inner `CORPUS` elements emptied. -/
theorem C47_formex_inner_tables (cfg : FmxP.Config) (blk : Nat) (parent : Option Node) (n : Node) (hn : n.tag? = some (cfg.f "CORPUS")) :
    (eval (FmxP.parseTable cfg blk parent n) PState.init).map (Option.map Table.layout) =
      (eval (FmxP.parseTable cfg blk parent (emptyInner (cfg.f "CORPUS") n)) PState.init).map (Option.map Table.layout) := by
  cases n with
  | pi => cases hn
  | comment => cases hn
  | elem t a x cs tl =>
    unfold eval
    have hn' : (Node.elem t a x (emptyTablesIn (cfg.f "CORPUS") cs) tl).tag? = some (cfg.f "CORPUS") := hn
    rw [FmxP.parseTable_run blk parent hn, emptyInner, FmxP.parseTable_run blk parent hn']
    refine (twin_bind (FmxP.twin_corpus (.refl parent) ⟨rfl, rfl⟩) (fun _ _ _ => ?_) PState.init PState.init rfl).1
    refine twin_bind (FmxP.twin_walkList blk (FmxP.alikeParent_empty _ t a x cs tl) cs) (fun _ _ _ => ?_)
    refine twin_bind (FmxP.twin_endCorpus (.refl parent)) (fun _ _ _ => ?_)
    refine twin_bind twin_get (fun s s' hs => ?_)
    exact twin_pure (congrArg (fun x => x.2.2.2) hs)

/-- a configuration without namespaces -/
def fmxNestConfig : FmxP.Config := ⟨none, some "c", true⟩

/-- a row -/
def fmxRow (cs : List Node) : Node := el "ROW" cs

/-- a cell of the column `k` -/
def fmxCell (k : String) (cs : List Node) : Node := .elem ⟨none, "CELL"⟩ [(⟨none, "COL"⟩, k)] none cs none

/-- not vacuous: an inner table with two rows -/
example : boxesOf (eval (FmxP.parseTable fmxNestConfig 0 none (el "CORPUS" [fmxRow [fmxCell "1" [],
      fmxCell "2" [el "TBL" [el "CORPUS" [fmxRow [fmxCell "1" []], fmxRow [fmxCell "1" []]]]]]])) PState.init) =
    [(1, 1, 1, 1), (2, 1, 2, 1)] := by decide +kernel

/-! ### C84 -/

/-- two rows of two cells; the first cell of the second row contains an element `n` -/
def fmxNest (n : Node) : Node :=
  el "CORPUS" [fmxRow [fmxCell "1" [], fmxCell "2" []], fmxRow [fmxCell "1" [n], fmxCell "2" []]]

/-- **C84 is false**: with a table in the first cell of the second row, the second cell of this row is put in the third column -/
theorem C84_counterexample :
    boxesOf (eval (FmxP.parseTable fmxNestConfig 0 none (fmxNest (el "P" []))) PState.init) =
      [(1, 1, 1, 1), (2, 1, 2, 1), (1, 2, 1, 2), (2, 2, 2, 2)] ∧
    boxesOf (eval (FmxP.parseTable fmxNestConfig 0 none (fmxNest (el "TBL" [el "CORPUS" [fmxRow [fmxCell "1" []]]]))) PState.init) =
      [(1, 1, 1, 1), (2, 1, 2, 1), (3, 1, 3, 1), (1, 2, 1, 2), (2, 2, 2, 2), (3, 2, 3, 2)] := by
  decide +kernel

/-- **C84 is false**: the notes of an inner table become a row of the enclosing table, and the next cells go to this row -/
theorem C84_notes_counterexample :
    boxesOf (eval (FmxP.parseTable fmxNestConfig 0 none
        (fmxNest (el "TBL" [el "GR.NOTES" [el "NOTE" []], el "CORPUS" [fmxRow [fmxCell "1" []]]]))) PState.init) =
      [(1, 1, 1, 1), (2, 1, 2, 1), (3, 1, 3, 1), (1, 2, 1, 2), (2, 2, 2, 2), (3, 2, 3, 2), (1, 3, 2, 3), (3, 3, 3, 3)] := by
  decide +kernel

/-- **C84**, the part which holds: the end of an inner table without notes changes nothing if the bounding box of the table has no hole yet -/
theorem C84_no_hole_partial (cfg : FmxP.Config) (tbl inner : Node) (hi : inner.tag? = some (cfg.f "CORPUS"))
    (hn : ∀ c ∈ tbl.children, c.tag? ≠ some (cfg.f "GR.NOTES")) (s : PState) (t : Table Content)
    (hs : s.table = some t) (b : Box) (hb : t.boundingBox = .ok (some b)) (hc : ∀ p, InBox p b → Covered t.grid.cells p) :
    FmxP.onEnd cfg (some tbl) inner s = (.ok (), s) := by
  have h0 : FmxP.notesOf cfg (some tbl) = [] := by
    unfold FmxP.notesOf
    rw [List.filter_eq_nil_iff]
    intro c hc
    have := hn c ((List.takeWhile_prefix _).subset hc)
    simpa using this
  have key := C61_no_hole_partial ⟨none, [], id⟩ (el "table" []) rfl s t hs b hb hc
  have een : FmxP.onEnd cfg (some tbl) inner = (do pure (); PState.onTable fillHoles) := by
    have h1 : cfg.f "CORPUS" ≠ cfg.f "ROW" := by simp [FmxP.Config.f]
    have h2 : cfg.f "CORPUS" ≠ cfg.f "TI.BLK" := by simp [FmxP.Config.f]
    have h3 : cfg.f "CORPUS" ≠ cfg.f "STI.BLK" := by simp [FmxP.Config.f]
    simp only [FmxP.onEnd, hi, Option.some.injEq, h1, h2, h3, or_self, if_false, if_true, FmxP.endCorpus, h0, forEach]
    rfl
  rw [een]
  exact key

/-- not vacuous: the first row of `fmxNest`, as read from the table which contains it only -/
example : ∃ (t : Table Content) (b : Box), t.boundingBox = .ok (some b) ∧ t.grid.cells.length = 2 ∧ b = ⟨⟨1, 1⟩, ⟨2, 1⟩⟩ ∧
    (∀ p, InBox p b → Covered t.grid.cells p) ∧
    eval (FmxP.parseTable fmxNestConfig 0 none (el "CORPUS" [fmxRow [fmxCell "1" [], fmxCell "2" []]])) PState.init = .ok (some t) := by
  have h : boxesOf (eval (FmxP.parseTable fmxNestConfig 0 none (el "CORPUS" [fmxRow [fmxCell "1" [], fmxCell "2" []]])) PState.init) =
    [(1, 1, 1, 1), (2, 1, 2, 1)] := by decide +kernel
  have hb : (match eval (FmxP.parseTable fmxNestConfig 0 none (el "CORPUS" [fmxRow [fmxCell "1" [], fmxCell "2" []]])) PState.init with
    | .ok (some t) => t.boundingBox == .ok (some ⟨⟨1, 1⟩, ⟨2, 1⟩⟩) | _ => false) = true := by decide +kernel
  cases hr : eval (FmxP.parseTable fmxNestConfig 0 none (el "CORPUS" [fmxRow [fmxCell "1" [], fmxCell "2" []]])) PState.init with
  | error e => rw [hr] at h; cases h
  | ok r =>
    cases r with
    | none => rw [hr] at h; cases h
    | some t =>
      rw [hr] at h hb
      simp only [boxesOf] at h hb
      refine ⟨t, ⟨⟨1, 1⟩, ⟨2, 1⟩⟩, eq_of_beq hb, ?_, rfl, ?_, rfl⟩
      · have := congrArg List.length h; simpa using this
      · intro p hp
        generalize t.grid.cells = l at h
        match l with
        | [] => cases h
        | [_] => simp at h
        | _ :: _ :: _ :: _ => simp at h
        | [c, d] =>
          simp only [List.map_cons, List.map_nil, List.cons.injEq, Prod.mk.injEq, and_true] at h
          obtain ⟨⟨a1, a2, a3, a4⟩, b1, b2, b3, b4⟩ := h
          unfold InBox at hp
          simp only at hp
          by_cases hx : p.x = 1
          · exact ⟨c, by simp, by unfold InBox; omega⟩
          · exact ⟨d, by simp, by unfold InBox; omega⟩

end Benker
