import Verif.Props.FormexBlocks
import Verif.Spec.Table
import Verif.Lemmas.Table

/-! C53: the type of header rows. -/

namespace Benker
open FmxSpec Fmx PyM

mutual
/-- the `ROW` elements of a node, in document order -/
def rowElems : Node → List Node
  | .elem t a x cs tl => (if t = name "ROW" then [.elem t a x cs tl] else []) ++ rowElemsList cs
  | _ => []
def rowElemsList : List Node → List Node
  | [] => []
  | n :: ns => rowElems n ++ rowElemsList ns
end

/-- a table with a header row and a body row -/
def headerTable : Table Content :=
  Table.runFrom ⟨[], none, ⟨[]⟩, none, none⟩
    [.access .row, .access .col,
     .grid (.set (.tuple [.int 1, .int 1]) ⟨some (.text "a"), none, some "header", 1, 1, 1, 1⟩),
     .grid (.set (.tuple [.int 1, .int 2]) ⟨some (.text "b"), none, some "body", 1, 1, 1, 1⟩),
     .setNature .row 1 (some "header"), .setNature .row 2 (some "body")]

/-- the builder gives its type to the header row, and the finalisation takes it away -/
theorem C53_counterexample :
    ∃ (cfg : Config) (t : Table Content) (tree out : Node) (rows : List (View Content)), t.Reachable ∧ eval (Table.views .row) t = .ok rows ∧
      rows.map (·.nature) = [some "header", some "body"] ∧ eval (generate cfg 1) t = .ok tree ∧
      (rowElems tree).map (fun r => r.attr (name "TYPE")) = [some "HEADER", none] ∧ finalize cfg tree = .ok out ∧
      (rowElems out).map (fun r => r.attr (name "TYPE")) = [none, none] := by
  have key : (match eval (Table.views .row) headerTable, eval (generate ⟨false, true, none, ['m', 'm'], id⟩ 1) headerTable with
      | .ok rows, .ok tree => (match finalize ⟨false, true, none, ['m', 'm'], id⟩ tree with
        | .ok out => rows.map (·.nature) == [some "header", some "body"] &&
          (rowElems tree).map (fun r => r.attr (name "TYPE")) == [some "HEADER", none] &&
          (rowElems out).map (fun r => r.attr (name "TYPE")) == [none, none]
        | .error _ => false)
      | _, _ => false) = true := by decide +kernel
  split at key
  · rename_i rows tree h1 h2
    split at key
    · rename_i out h3
      simp only [Bool.and_eq_true, beq_iff_eq] at key
      exact ⟨_, headerTable, tree, out, rows, ⟨[], none, none, _, _, by simp, rfl, rfl⟩, h1, key.1.1, h2, key.1.2, h3, key.2⟩
    · cases key
  · cases key

/-- A row whose row style says `HEADER` carries this type after the grouping, and so do its cells. -/
theorem C53_styled_rows_partial (cfg : Config) (a : Dict QName String) (x : Option String) (cs : List Node) (tl : Option String) (out : Node)
    (hb : ∀ c ∈ cs, c.tag? ≠ some (name "BLK")) (h : insertBlk cfg (.elem (name "CORPUS") a x cs tl) = .ok out) :
    ∃ items, (inBlocksList 0 out.children).map (·.2) = items ∧ All₂ (fun raw n => raw.tag?.isSome → ∀ s level, raw.attr (cfg.q "rowstyle") = some s →
      guessRowInfo (some s) = ⟨"ROW", some "HEADER", level⟩ →
      n.attr (name "TYPE") = some "HEADER" ∧ ∀ c ∈ cells n, c.attr (name "TYPE") = some "HEADER") cs items := by
  obtain ⟨g, items, rfl, h1, h2⟩ := C50_blocks cfg a x cs tl out hb h
  refine ⟨items, ?_, ?_⟩
  · show (inBlocksList 0 g).map (·.2) = items
    rw [h1]
    have hl : items.length = (levels (fun n => (guessRowInfo (n.attr (cfg.q "rowstyle"))).level) 0 cs).length := by
      rw [← h2.length]
      have : ∀ (lv : Node → Nat) (l : List Node) cur, (levels lv cur l).length = l.length := by
        intro lv l
        induction l with
        | nil => intro cur; rfl
        | cons n l ih => intro cur; rw [levels_cons]; simp [ih]
      exact (this _ cs 0).symm
    exact List.map_snd_zip (by omega)
  · refine h2.imp ?_
    intro raw n hitem htag s level hs hinfo
    unfold BlockItem at hitem
    have hpi : ¬ isPi raw = true := by cases raw <;> simp_all [isPi, Node.tag?]
    rw [if_neg hpi] at hitem
    obtain ⟨row, hrow, hk⟩ := hitem
    simp only [hs, hinfo, if_true] at hk
    have htag' : row.tag? = raw.tag? := (insertBlk_tag hrow).1
    refine ⟨?_, ?_⟩
    · rw [hk.attrs, if_pos ⟨rfl, rfl, by rw [htag']; exact htag⟩]
    · intro c hc
      obtain ⟨hm, ht⟩ := List.mem_filter.mp hc
      obtain ⟨i, hi, rfl⟩ := List.getElem_of_mem hm
      have hi' : i < row.children.length := by rw [← hk.children.1]; exact hi
      obtain ⟨e1, _, _, _, e2⟩ := hk.children.2 i row.children[i] n.children[i] (List.getElem?_eq_getElem hi') (List.getElem?_eq_getElem hi)
      rw [e2, if_pos ⟨rfl, rfl, by rw [← e1]; exact of_decide_eq_true ht⟩]

example : guessRowInfo (some "ROW-HEADER-level2") = ⟨"ROW", some "HEADER", 2⟩ := by decide +kernel

end Benker
