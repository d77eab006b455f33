import Verif.Lemmas.FormexLooks
import Verif.Props.CalsLooks

/-! C77: the looks of a table in the attributes of the Formex document. -/

namespace Benker
open PyM Cals CalsSpec FmxSpec

theorem buildCell_attrs {cfg : Fmx.Config} {colsep rowsep : String} {bb : Option Box} {rn : Option String} {c : Cell Content} {e : Node}
    (h : Fmx.buildCell cfg colsep rowsep bb rn c = .ok e) : ∃ a, Fmx.cellAttrs cfg colsep rowsep bb c rn = .ok a ∧ e.attr = Dict.get? a := by
  unfold Fmx.buildCell at h
  obtain ⟨a, h1, h⟩ := bind_ok h
  refine ⟨a, h1, ?_⟩
  split at h
  · cases h; rfl
  · obtain ⟨r, _, h⟩ := bind_ok h
    cases h; rfl

theorem cell_bb {cfg : Fmx.Config} {colsep rowsep : String} {bb : Option Box} {rn : Option String} {c : Cell Content} {a : Dict QName String}
    (hu : cfg.useCals = true) (h : Fmx.cellAttrs cfg colsep rowsep bb c rn = .ok a) : ∃ b, bb = some b := by
  unfold Fmx.cellAttrs at h
  obtain ⟨ty, hty, h⟩ := bind_ok h
  simp only at h
  rw [if_pos hu] at h
  cases bb with
  | none => cases h
  | some b => exact ⟨b, rfl⟩

theorem buildRow_attrs {cfg : Fmx.Config} {colsep rowsep : String} {bb : Option Box} {r : View Content} {nodes : List Node}
    (h : Fmx.buildRow cfg colsep rowsep bb r = .ok nodes) : ∃ a es, Fmx.rowAttrs cfg rowsep r = .ok a ∧
      All₂ (fun c e => Fmx.buildCell cfg colsep rowsep bb r.nature c = .ok e) r.owned es ∧
      nodes.filter (fun n => n.tag?.isSome) = [.elem (name "ROW") a none es none] := by
  unfold Fmx.buildRow at h
  obtain ⟨a, h1, h⟩ := bind_ok h
  obtain ⟨es, h2, h⟩ := bind_ok h
  simp only at h
  refine ⟨a, es, h1, mapM_ok_all₂ h2, ?_⟩
  split at h
  · obtain ⟨i, _, h⟩ := bind_ok h
    obtain ⟨j, _, h⟩ := bind_ok h
    obtain ⟨k, _, h⟩ := bind_ok h
    cases h; rfl
  · cases h; rfl

theorem tableSep_ok {cfg : Fmx.Config} {styles : Styles} {key s : String} (hu : cfg.useCals = true) (h : Fmx.tableSep cfg styles key = .ok s) :
    defaultSep styles key = .ok s := by
  unfold Fmx.tableSep at h
  rw [if_pos hu] at h
  exact h

/-- **C77**: for every table, when the CALS attributes are asked for, the Formex document tells the looks of the table: the `CORPUS` its frame, its
default separators, its nature, the orientation and the number of columns of the page, its colour and its width in the unit of the configuration; there
is one `colspec` per column with its separators, its width and its alignment, one row per row with its vertical alignment, its separator, its style and
its colour, and one `CELL` per cell with its separators — except those of the last column and of the last row, which are drawn by the frame —, its
alignments and its colour. A separator is written only where it differs from that of the table, and nothing else is written. When the CALS attributes
are not asked for, no element has any of these attributes. -/
theorem C77_formex_looks (cfg : Fmx.Config) (noSeq : Nat) (t : Table Content) (ht : t.Reachable) (tree : Node)
    (h : eval (Fmx.generate cfg noSeq) t = .ok tree) (rows cols : List (View Content)) (hrows : eval (Table.views .row) t = .ok rows)
    (hcols : eval (Table.views .col) t = .ok cols) :
    ∃ (title colspecs : List Node) (nodes : List (List Node)) (rest : List (View Content)) (corpus : Node),
      tree.children = title ++ [corpus] ∧ corpus.tag? = some (name "CORPUS") ∧ corpus.children = colspecs ++ nodes.flatten ∧
      (title = [] ∧ rest = rows ∨ ∃ r e, rows = r :: rest ∧ title = [e]) ∧
      (cfg.useCals = true → CorpusLooks cfg.calsNs cfg.fl cfg.widthUnit t corpus.attr ∧
        All₂ (fun v e => ColLooks cfg.calsNs cfg.fl cfg.widthUnit t corpus.attr v e.attr) cols colspecs ∧
        All₂ (fun r ns => ∃ row, ns.filter (fun n => n.tag?.isSome) = [row] ∧ row.tag? = some (name "ROW") ∧
          RowLooks cfg.calsNs t corpus.attr r row.attr ∧
          All₂ (fun c e => CellLooks cfg.calsNs t corpus.attr c e.attr) r.owned row.children) rest nodes) ∧
      (cfg.useCals = false → (∀ k, corpus.attr k = none) ∧ colspecs = [] ∧
        All₂ (fun r ns => ∃ row, ns.filter (fun n => n.tag?.isSome) = [row] ∧ row.tag? = some (name "ROW") ∧
          (∀ k, row.attr k ≠ none → k = name "TYPE") ∧
          All₂ (fun (_ : Cell Content) e => ∀ k, e.attr k ≠ none → k ∈ ["COL", "COLSPAN", "ROWSPAN", "TYPE"].map name) r.owned row.children) rest nodes) := by
  have hi := ht.inv
  have hdr := Table.base_describes hi .row
  have hr := views_eq hi hrows
  have hc := views_eq hi hcols
  rw [← hr] at hdr
  obtain ⟨bb, hbb, he⟩ := fmx_generate_eq hi cfg noSeq
  rw [he, ← hr, ← hc] at h
  obtain ⟨attrs, cattrs, title, colspecs, nodes, rest, B, hB, hcol, hrow, hs, _, hca, rfl, k1, k2, k3⟩ := fmx_buildTree_raw h
  have hsplit : title = [] ∧ rest = rows ∨ ∃ r e, rows = r :: rest ∧ title = [e] := by
    rcases splitTitle_spec hbb hs with ⟨h1, h2, _⟩ | ⟨r, e, h1, h2, _⟩
    · exact .inl ⟨h1, h2⟩
    · exact .inr ⟨r, e, h1, h2⟩
  have hmem : ∀ r ∈ rest, ∀ c ∈ r.owned, c ∈ t.cells := by
    intro r hm c hc
    have hmem : r ∈ rows := by
      rcases hsplit with ⟨_, e⟩ | ⟨r', _, e, _⟩
      · rw [← e]; exact hm
      · rw [e]; simp [hm]
    exact ((hdr.owned r hmem c).mp hc).1
  refine ⟨title, colspecs, nodes, rest, _, rfl, rfl, rfl, hsplit, ?_, ?_⟩
  · intro hu
    have d1 := tableSep_ok hu hcol
    have d2 := tableSep_ok hu hrow
    obtain ⟨l1, l2, l3⟩ := corpus_looks hu hca
    have l2 := l2 _ d1
    have l3 := l3 _ d2
    refine ⟨l1, (k2 hu).imp (fun v e hv => col_looks d1 l2 d2 l3 hv), ?_⟩
    refine k3.imp_mem ?_
    intro r hm ns hns
    obtain ⟨a, es, r1, r2, r3⟩ := buildRow_attrs hns
    refine ⟨_, r3, rfl, row_looks hu d2 l3 r1, ?_⟩
    refine r2.imp_mem ?_
    intro c hc e hce
    obtain ⟨a', c1, c2⟩ := buildCell_attrs hce
    obtain ⟨b, hb⟩ := cell_bb hu c1
    have hin := hmem r hm c hc
    have hne : t.grid.cells ≠ [] := List.ne_nil_of_mem hin
    have hb' : t.grid.boundingBox = .ok (some b) := by rw [← hb, hB]; exact hbb
    have key : ∀ ax : Axis, (∀ d ∈ t.cells, lastLine ax d ≤ ax.last b) ∧ ∃ d ∈ t.cells, lastLine ax d = ax.last b := by
      intro ax
      obtain ⟨q1, _, q2, _⟩ := lastLineOf_spec ax t.grid hi.grid
      have : lastLineOf ax t.grid = ax.last b := by unfold lastLineOf; rw [hb']
      rw [this] at q1 q2
      exact ⟨q1, q2 hne⟩
    rw [c2]
    rw [hb] at c1
    exact cell_looks hu (key .col) (key .row) d1 l2 d2 l3 hin c1
  · intro hu
    refine ⟨?_, k1 hu, ?_⟩
    · unfold Fmx.corpusAttrs at hca
      rw [hu] at hca; cases hca; intro k; rfl
    · refine k3.imp_mem ?_
      intro r hm ns hns
      obtain ⟨a, es, r1, r2, r3⟩ := buildRow_attrs hns
      refine ⟨_, r3, rfl, ?_, ?_⟩
      · unfold Fmx.rowAttrs at r1
        simp only [hu] at r1
        cases r1
        intro k hk
        apply Classical.byContradiction
        intro hn
        apply hk
        show Dict.get? (Fmx.optAttr (Fmx.f "TYPE") (Fmx.rowType r.nature) []) k = none
        rw [optAttr_get, if_neg (show ¬ k = Fmx.f "TYPE" from hn)]; rfl
      · refine r2.imp_mem ?_
        intro c hc e hce
        exact (buildCell_spec (hi.grid.valid c (hmem r hm c hc)) hce).plain hu

/-- the configuration of a Formex builder which writes the CALS attributes -/
def looksFormex : Fmx.Config := ⟨false, true, some "cals", "mm".toList, id⟩

/-- the values of an attribute in the elements of a list, as texts -/
def valuesOf (nm : String) (l : List Node) : List (List Char) := l.map (fun n => ((n.attr ⟨some "cals", nm⟩).getD "-").toList)

/-- a table with styles everywhere is written, with its looks: the hypotheses of `C77_formex_looks` hold, with and without the CALS attributes -/
example : looksDemo.Reachable ∧
    ((eval (Fmx.generate looksFormex 1) looksDemo).map (fun n => n.children.map (fun c => valuesOf "frame" [c] ++ valuesOf "pgwide" [c] ++
      valuesOf "rowsep" c.children ++ c.children.flatMap (fun r => valuesOf "colsep" r.children)))) =
      .ok [["topbot", "0", "-", "-", "-", "0", "-", "-", "-", "-", "-", "-", "1", "-", "-"].map String.toList] ∧
    ((eval (Fmx.generate { looksFormex with useCals := false } 1) looksDemo).map (fun n => n.children.map (fun c => valuesOf "frame" [c]))) =
      .ok [["-".toList]] ∧
    (∃ rows cols, eval (Table.views .row) looksDemo = .ok rows ∧ eval (Table.views .col) looksDemo = .ok cols) := by
  have hv := fun ax => Table.views_run ax looksDemo looksDemo_reachable.inv.grid
  exact ⟨looksDemo_reachable, by decide +kernel, by decide +kernel, looksDemo.baseViews .row, looksDemo.baseViews .col, by rw [eval, hv], by rw [eval, hv]⟩

end Benker
