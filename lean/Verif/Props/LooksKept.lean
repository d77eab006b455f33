import Verif.Lemmas.LooksKept
import Verif.Props.ToFormex

/-! C93: the looks of a CALS table in the Formex document. -/

namespace Benker
open PyM CalsSpec FmxSpec Kept Benker.Convert

/-- the looks which the CALS parser reads, row by row -/
theorem cals_reads {pc : CalsP.Config} {d : CalsDoc} {w h : Nat} (hn : d.Nested pc.ns) (hd : d.Drawn pc.ns w h) (hc : d.Columns pc.ns w)
    (ha : Accepted pc d.table) (parent : Option Node) (s : PState) :
    ∃ (t : Table Content) (rows cols : List (View Content)), eval (CalsP.parseTable pc parent d.table) s = .ok (some t) ∧
      eval (Table.views .row) t = .ok rows ∧ eval (Table.views .col) t = .ok cols ∧ rows.length = h ∧ cols.length = w ∧ ParsedTable t ∧
      (∀ p : Coord, 1 ≤ p.x → p.x ≤ w → 1 ≤ p.y → p.y ≤ h → Covered t.cells p) ∧
      (∀ c ∈ t.cells, 1 ≤ c.box.min.x ∧ c.box.min.x ≤ c.box.max.x ∧ c.box.max.x ≤ w ∧ 1 ≤ c.box.min.y ∧ c.box.min.y ≤ c.box.max.y ∧ c.box.max.y ≤ h) ∧
      All₂ (fun x r => RowShown pc.ns x.1 x.2.node r.styles ∧
        All₂ (fun e c => c.box = e.box ∧ EntryShown pc.ns e.node c.styles) x.2.entries r.owned) d.rows rows ∧
      (∀ c ∈ d.cols, ∃ v, cols[c.num - 1]? = some v ∧ ColShown pc.ns c.node v.styles) ∧
      TableShown pc.ns (Units.rewriteWidth pc.fl pc.widthUnit) d.table d.tgroup t.styles ∧
      TableNature (d.table.attr ⟨pc.ns, "tabstyle"⟩) (d.tgroup.attr ⟨pc.ns, "tgroupstyle"⟩) t.nature := by
  obtain ⟨t, rows, cols, h1, h2, h3, h4, h5, hcells, hrows, hcols, htable, hnat⟩ := C73_reading (pc := pc) d w h hn hd hc ha parent s
  have hparsed : ParsedTable t := .cals pc parent d.table s t hn.table h1
  have hi : t.Inv := hparsed.tidy.1.inv
  have hord := (C80_rows t hparsed rows h2).1.leftToRight
  have hdr : Describes .row t.grid.cells rows := by rw [views_eq hi h2]; exact Table.base_describes hi .row
  have hown := owned_eq hi hdr hord
  have hlen : d.rows.length = rows.length := by rw [hd.height, h4]
  have hlines := all₂_unflat
    (R := fun (e : Node × DocEntry) (c : Cell Content) => c.box = e.2.box ∧ contentToks c.content = insideToks e.2.node ∧
      (Content.text? c.content).toList = charsOf (insideToks e.2.node) ∧ (∃ k, KindOf e.1 k ∧ c.nature = some k) ∧ EntryShown pc.ns e.2.node c.styles)
    (fun r : Node × DocRow => r.2.entries.map (fun e => (r.1, e))) (fun r : View Content => r.owned) (fun e => e.2.box.min.y)
    (fun c => c.box.min.y) (fun a b hab => by rw [hab.1]) d.rows rows 1 hlen
    (by
      intro i l hl e he
      obtain ⟨e, he', rfl⟩ := List.mem_map.mp he
      have := hd.starts i l hl e he'
      simp only
      omega)
    (by
      intro i r hr c' hc'
      obtain ⟨hlt, rfl⟩ := List.getElem?_eq_some_iff.mp hr
      have e1 : c'.box.min.y = rows[i].pos := ((hdr.owned _ (List.getElem_mem hlt) c').mp hc').2
      have e2 := hdr.pos i hlt
      omega)
    (by
      rw [show rows.flatMap (fun r => r.owned) = t.grid.cells from hown]
      exact hcells)
  refine ⟨t, rows, cols, h1, h2, h3, h4, h5, hparsed, ?_, ?_, ?_, hcols, htable, hnat⟩
  · intro p p1 p2 p3 p4
    obtain ⟨e, he, hin⟩ := hd.full p p1 p2 p3 p4
    obtain ⟨c', hc', hb, _⟩ := hcells.mem_left he
    exact ⟨c', hc', by rw [hb]; exact hin⟩
  · intro c hcm
    obtain ⟨e, he, hb, _⟩ := hcells.mem_right hcm
    have hv := hd.valid e he
    have hvv := hi.grid.valid c hcm
    unfold Box.Valid at hvv
    rw [hb] at hvv ⊢
    omega
  · refine all₂_of_getElem hlen ?_
    intro i x r hx hr
    obtain ⟨r', hr', -, hR⟩ := all₂_to hrows hx
    rw [hr] at hr'; cases hr'
    obtain ⟨r', hr', hall⟩ := all₂_to hlines hx
    rw [hr] at hr'; cases hr'
    refine ⟨hR, ?_⟩
    have := All₂.of_map_left hall
    exact this.imp_mem (fun e _ c hec => ⟨hec.1, hec.2.2.2.2⟩)

/-- a cell of the last column, and the others -/
theorem lastColumn_of {t : Table Content} {w h : Nat} (hfull : ∀ p : Coord, 1 ≤ p.x → p.x ≤ w → 1 ≤ p.y → p.y ≤ h → Covered t.cells p)
    (hin : ∀ c ∈ t.cells, 1 ≤ c.box.min.x ∧ c.box.min.x ≤ c.box.max.x ∧ c.box.max.x ≤ w ∧ 1 ≤ c.box.min.y ∧ c.box.min.y ≤ c.box.max.y ∧ c.box.max.y ≤ h)
    {c : Cell Content} (hc : c ∈ t.cells) :
    (c.box.max.x < w → ∃ d ∈ t.cells, c.max.x < d.max.x) ∧ (c.box.max.x = w → ∀ d ∈ t.cells, d.max.x ≤ c.max.x) ∧
    (c.box.max.y < h → ∃ d ∈ t.cells, c.max.y < d.max.y) ∧ (c.box.max.y = h → ∀ d ∈ t.cells, d.max.y ≤ c.max.y) := by
  have hv := hin c hc
  refine ⟨?_, ?_, ?_, ?_⟩
  · intro hlt
    obtain ⟨d, hd, hp⟩ := hfull ⟨w, c.box.min.y⟩ (by simp only; omega) (by simp) (by simp only; omega) (by simp only; omega)
    unfold InBox at hp
    simp only at hp
    exact ⟨d, hd, by simp only [Cell.max]; omega⟩
  · intro he d hd
    have := hin d hd
    simp only [Cell.max]; omega
  · intro hlt
    obtain ⟨d, hd, hp⟩ := hfull ⟨c.box.min.x, h⟩ (by simp only; omega) (by simp only; omega) (by simp only; omega) (by simp)
    unfold InBox at hp
    simp only at hp
    exact ⟨d, hd, by simp only [Cell.max]; omega⟩
  · intro he d hd
    have := hin d hd
    simp only [Cell.max]; omega

/-- **C93** (CALS to Formex): for every CALS table which is converted to Formex with the CALS attributes, the `CORPUS` has the frame, the separators, the
style, the orientation, the page width, the colour and the width (in the unit of the configuration) of the table; the `colspec` of a column has its
separators, its width and its alignment; the rows (after the title, if the first row is one) and their cells have, in the same order, the separators,
the alignments, the styles and the colours which the source tells. -/
theorem C93_cals_to_formex (pc : CalsP.Config) (bc : Fmx.Config) (hu : bc.useCals = true) (d : CalsDoc) (w h : Nat) (hn : d.Nested pc.ns)
    (hd : d.Drawn pc.ns w h) (hc : d.Columns pc.ns w) (ha : Accepted pc d.table) (following : List Node) (tree : Node)
    (hconv : (Convert.cals2formex pc bc).convert following d.table = .ok tree) :
    ∃ (title colspecs : List Node) (nodes : List (List Node)) (rest : List (Node × DocRow)) (corpus : Node),
      tree.children = title ++ [corpus] ∧ corpus.tag? = some (FmxSpec.name "CORPUS") ∧ corpus.children = colspecs ++ nodes.flatten ∧
      (title = [] ∧ rest = d.rows ∨ ∃ x e, d.rows = x :: rest ∧ title = [e]) ∧
      TableKept pc.ns bc.calsNs [Units.rewriteWidth pc.fl pc.widthUnit, Units.rewriteWidth bc.fl bc.widthUnit] d.table d.tgroup corpus ∧
      colspecs.length = w ∧
      (∀ c ∈ d.cols, ∃ e, colspecs[c.num - 1]? = some e ∧ ColKept pc.ns bc.calsNs [Units.rewriteWidth bc.fl bc.widthUnit] corpus c.node e) ∧
      All₂ (fun x ns => ∃ row, ns.filter (fun n => n.tag?.isSome) = [row] ∧ row.tag? = some (FmxSpec.name "ROW") ∧
        RowKept pc.ns bc.calsNs corpus x.1 x.2.node row ∧ All₂ (CellKept pc.ns bc.calsNs w h corpus) x.2.entries row.children) rest nodes := by
  obtain ⟨t, rows, cols, h1, h2, h3, h4, h5, hparsed, hfull, hin, hrows, hcols, htable, hnat⟩ := cals_reads hn hd hc ha none PState.init
  unfold Convert.cals2formex Convert.thenGenerate at hconv
  simp only [h1] at hconv
  have hr : t.Reachable := hparsed.tidy.1
  have hi := hr.inv
  have hdr : Describes .row t.grid.cells rows := by rw [views_eq hi h2]; exact Table.base_describes hi .row
  obtain ⟨title, colspecs, nodes, rest, corpus, q1, q2, q3, q4, q5, -⟩ := C77_formex_looks bc 1 t hr tree hconv rows cols h2 h3
  obtain ⟨lc, lcol, lrow⟩ := q5 hu
  have sR := sep_told_or htable.right
  have sB := sep_told_or htable.bottom
  have wR := table_line lc.right sR
  have wB := table_line lc.bottom sB
  obtain ⟨f, f1, f2⟩ := lc.frame
  obtain ⟨rest', hrest, hsplit⟩ : ∃ rest', All₂ (fun x r => r ∈ rows ∧ RowShown pc.ns x.1 x.2.node r.styles ∧
        All₂ (fun e c => c.box = e.box ∧ EntryShown pc.ns e.node c.styles) x.2.entries r.owned) rest' rest ∧
      (title = [] ∧ rest' = d.rows ∨ ∃ x e, d.rows = x :: rest' ∧ title = [e]) := by
    rcases q4 with ⟨e1, e2⟩ | ⟨r, e, e1, e2⟩
    · refine ⟨d.rows, ?_, .inl ⟨e1, rfl⟩⟩
      rw [e2]
      exact all₂_of_getElem hrows.length (fun i x r hx hr => by
        obtain ⟨r', hr', hR⟩ := all₂_to hrows hx
        rw [hr] at hr'; cases hr'
        exact ⟨List.mem_of_getElem? hr, hR⟩)
    · have hlen := hrows.length
      rw [e1] at hrows
      cases hdr' : d.rows with
      | nil => rw [hdr', e1] at hlen; simp at hlen
      | cons x xs =>
        rw [hdr'] at hrows
        cases hrows with
        | cons _ htl =>
          refine ⟨xs, ?_, .inr ⟨x, e, rfl, e2⟩⟩
          exact all₂_of_getElem htl.length (fun i x r hx hr => by
            obtain ⟨r', hr', hR⟩ := all₂_to htl hx
            rw [hr] at hr'; cases hr'
            exact ⟨by rw [e1]; exact List.mem_cons_of_mem _ (List.mem_of_getElem? hr), hR⟩)
  refine ⟨title, colspecs, nodes, rest', corpus, q1, q2, q3, hsplit, ?_, by rw [← lcol.length, h5], ?_, ?_⟩
  · refine ⟨?_, wR, wB, ?_, told_orient htable.orient lc.orient, told_pages htable.columns lc.pgwide, copied_filled htable.background lc.bgcolor,
      width_two htable.noWidth htable.width lc.width⟩
    · rw [f1, frame_kept htable.frame f2]
    · rw [lc.tabstyle]; exact hnat
  · intro c hcm
    obtain ⟨v, hv, hs⟩ := hcols c hcm
    obtain ⟨e, he, hl⟩ := all₂_to lcol hv
    exact ⟨e, he, part_line hl.right (sep_told hs.right) sR wR, part_line hl.bottom (sep_told hs.bottom) sB wB, width_one hs.width hl.width,
      told_col_align hs.align hl.align⟩
  · refine all₂_of_getElem (hrest.length.trans lrow.length) ?_
    intro i x ns hx hns
    obtain ⟨r, hr', hmem, hR, hE⟩ := all₂_to hrest hx
    obtain ⟨ns', hns', row, k1, k2, k3, k4⟩ := all₂_to lrow hr'
    rw [hns] at hns'; cases hns'
    refine ⟨row, k1, k2, ⟨?_, part_line k3.bottom (sep_told hR.bottom) sB wB, copied_filled hR.style k3.rowstyle,
      copied_filled hR.background k3.bgcolor⟩, ?_⟩
    · have hval := hR.valign
      cases hv : told valigns (x.2.node.attr ⟨pc.ns, "valign"⟩) with
      | some y =>
        rw [hv, Option.some_or] at hval
        have e1 := told_valign (hval.trans hv.symm) (more := [("baseline", "bottom")]) k3.valign
        rw [e1]
        have : valign (x.2.node.attr ⟨pc.ns, "valign"⟩) ≠ none := by
          intro e
          rw [e] at e1
          obtain ⟨s, _, h2⟩ := k3.valign.2 _ hval
          rw [e1] at h2; cases h2
        cases hz : valign (x.2.node.attr ⟨pc.ns, "valign"⟩) with
        | none => exact absurd hz this
        | some z => rfl
      | none =>
        rw [hv, Option.none_or] at hval
        rw [told_valign hval (more := [("baseline", "bottom")]) k3.valign]
        have e1 : valign (x.2.node.attr ⟨pc.ns, "valign"⟩) = none :=
          (told_valign (st := []) (more := []) (o := x.2.node.attr ⟨pc.ns, "valign"⟩) (attr := none) (by rw [hv]; rfl) ⟨fun _ => rfl, fun v h => by cases h⟩).symm
        rw [e1]; rfl
    · refine all₂_of_getElem (hE.length.trans k4.length) ?_
      intro j e cell he hcell
      obtain ⟨c, hc', hb, hS⟩ := all₂_to hE he
      obtain ⟨cell', hcell', hL⟩ := all₂_to k4 hc'
      rw [hcell] at hcell'; cases hcell'
      have hcm : c ∈ t.cells := ((hdr.owned r hmem c).mp (List.mem_of_getElem? hc')).1
      obtain ⟨b1, b2, b3, b4⟩ := lastColumn_of hfull hin hcm
      rw [hb] at b1 b2 b3 b4
      exact ⟨fun hx => part_line (hL.right (b1 hx)) (sep_told hS.right) sR wR, fun hx => hL.lastColumn (b2 hx),
        fun hx => part_line (hL.bottom (b3 hx)) (sep_told hS.bottom) sB wB, fun hx => hL.lastRow (b4 hx),
        told_valign hS.valign (more := [("baseline", "bottom"), ("w-both", "bottom")]) hL.valign, told_align hS.align hL.align,
        copied_filled hS.background hL.bgcolor⟩

/-- not vacuous: a table with a frame, separators, alignments on a character, in a group of rows, a colour and widths is converted -/
example : docDemo.Nested none ∧ docDemo.Drawn none 3 3 ∧ docDemo.Columns none 3 ∧ Accepted (⟨none, ['m', 'm'], id⟩ : CalsP.Config) docDemo.table ∧
    ((Convert.cals2formex ⟨none, ['m', 'm'], id⟩ looksFormex).convert [] docDemo.table).map (fun n => n.children.map (fun c =>
      valuesOf "frame" [c] ++ valuesOf "tabstyle" [c] ++ valuesOf "rowsep" c.children ++ valuesOf "valign" c.children ++
      c.children.flatMap (fun r => valuesOf "align" r.children ++ valuesOf "bgcolor" r.children))) =
      .ok [["topbot", "x z", "-", "-", "-", "1", "-", "-", "-", "-", "-", "top", "bottom", "top", "left", "-", "-", "-", "-", "-", "red", "-", "-", "-", "-", "-"].map String.toList] := by
  exact ⟨docDemo_nested, docDemo_drawn, docDemo_columns, docDemo_accepted, by decide +kernel⟩

end Benker
