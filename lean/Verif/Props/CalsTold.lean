import Verif.Lemmas.CalsTold
import Verif.Props.FormexLooks

/-! C92: the looks of a table in the attributes of the CALS document. -/

namespace Benker
open PyM Cals CalsSpec FmxSpec

/-- the proof of C92: it only needs the invariant of the table -/
theorem calsLooks_of_inv (ns : Option String) (u : List Char) (tg : Bool) (sorting : Option (List String)) (fl : Rat → Rat) (cfg : Cals.Config)
    (hcfg : Cals.Config.new ns u tg sorting fl = .ok cfg) (t : Table Content) (hi : t.Inv) (tree : Node)
    (h : eval (Cals.generate cfg) t = .ok tree) (rows cols : List (View Content)) (hrows : eval (Table.views .row) t = .ok rows)
    (hcols : eval (Table.views .col) t = .ok cols) :
    ∃ (tgroup : Node) (colspecs bodies : List Node) (order : List (View Content)) (rk : Option String → Int),
      tree.children = [tgroup] ∧ tgroup.children = colspecs ++ bodies ∧
      TableTold cfg.ns tg fl u t cols.length tree.attr tgroup.attr ∧
      All₂ (fun v e => ColspecFor cfg v.pos e ∧ ColTold cfg.ns fl u t (if tg then tgroup else tree).attr v e.attr) cols colspecs ∧
      (∀ b ∈ bodies, ∀ k, b.attr k = none) ∧
      order.Perm rows ∧ (∀ n, RankIs cfg.tgroupSorting n (rk n)) ∧ order.Pairwise (fun r r' => rk r.nature ≤ rk r'.nature) ∧
      (∀ k, order.filter (fun r => rk r.nature = k) = rows.filter (fun r => rk r.nature = k)) ∧
      All₂ (fun r row => row.tag? = some ⟨cfg.ns, "row"⟩ ∧ RowTold cfg.ns t (if tg then tgroup else tree).attr r row.attr ∧
          All₂ (fun c e => EntryFor cfg c e ∧ CellTold cfg.ns t (if tg then tgroup else tree).attr c e.attr) r.owned row.children)
        order (bodies.flatMap (fun b => b.children.filter (fun n => n.tag?.isSome))) := by
  have hdr := Table.base_describes hi .row
  have hr := views_eq hi hrows
  have hc := views_eq hi hcols
  rw [← hr] at hdr
  have e0 : cfg.tableInTgroup = tg ∧ cfg.fl = fl ∧ cfg.widthUnit = u := by
    unfold Cals.Config.new at hcfg
    split at hcfg
    · cases hcfg; exact ⟨rfl, rfl, rfl⟩
    · cases hcfg
  obtain ⟨e2, e3, e4⟩ := e0
  obtain ⟨bb, hbb, he⟩ := generate_eq hi cfg
  rw [he, ← hr, ← hc] at h
  obtain ⟨attrs, tattrs, colspecs, bodies, B, hB, hcol, hrow, rfl, ha, hg, h2, h3⟩ := buildTree_raw h
  obtain ⟨g1, g2, g3, g4⟩ := rowGroups_spec cfg rows
  have hT := tableTold_of ha hg
  rw [e2, e3, e4] at hT
  have hplace : ∀ x s, (x = "colsep" ∧ s = B.colsep ∨ x = "rowsep" ∧ s = B.rowsep) →
      (if tg then Node.elem (cfg.q "tgroup") tattrs none (colspecs ++ bodies) none else
        Node.elem (cfg.q "table") attrs none [Node.elem (cfg.q "tgroup") tattrs none (colspecs ++ bodies) none] none).attr (cfg.q x) = some s := by
    intro x s hx
    obtain ⟨-, a2, a3, -⟩ := tableAttrs_looks ha
    obtain ⟨k1, k2⟩ := tgroupAttrs_looks hg
    cases htg : tg with
    | true =>
      obtain ⟨⟨c, q1, q2⟩, ⟨c', q3, q4⟩, -⟩ := k2 (e2.trans htg)
      rw [hcol] at q1; rw [hrow] at q3; cases q1; cases q3
      rcases hx with ⟨rfl, rfl⟩ | ⟨rfl, rfl⟩
      · exact q2
      · exact q4
    | false =>
      obtain ⟨⟨c, q1, q2⟩, ⟨c', q3, q4⟩, -⟩ := a3 (e2.trans htg)
      rw [hcol] at q1; rw [hrow] at q3; cases q1; cases q3
      rcases hx with ⟨rfl, rfl⟩ | ⟨rfl, rfl⟩
      · exact q2
      · exact q4
  have p1 := hplace "colsep" _ (.inl ⟨rfl, rfl⟩)
  have p2 := hplace "rowsep" _ (.inr ⟨rfl, rfl⟩)
  have hmem : ∀ g ∈ rowGroups cfg rows, ∀ r ∈ g, ∀ c ∈ r.owned, c ∈ t.cells := by
    intro g hg r hr c hc
    exact ((hdr.owned r (g2.mem_iff.mp (List.mem_flatten.mpr ⟨g, hg, hr⟩)) c).mp hc).1
  refine ⟨_, colspecs, bodies, (rowGroups cfg rows).flatten, rank cfg, rfl, rfl, hT, ?_, ?_, g2,
    rank_spec cfg (config_new_sorting hcfg "body" (by simp)), g3, g4, ?_⟩
  · refine h2.imp (fun v e hv => ⟨buildColspec_ok hv, ?_⟩)
    have := colTold_of hcol p1 hrow p2 hv
    rw [e3, e4] at this
    exact this
  · intro b hb k
    obtain ⟨g, hg, nodes, rfl, _⟩ := h3.mem_right hb
    rfl
  · have key : ∀ {gs : List (List (View Content))} {bs : List Node}, (∀ g ∈ gs, g ∈ rowGroups cfg rows) →
        All₂ (fun g body => ∃ nodes, body = Node.elem (cfg.q (groupTag (groupNature g))) [] none (List.flatten nodes) none ∧
          All₂ (fun r ns => buildRow cfg B.colsep B.rowsep B.bb r = .ok ns) g nodes) gs bs →
        All₂ (fun r row => row.tag? = some ⟨cfg.ns, "row"⟩ ∧ RowTold cfg.ns t (if tg then Node.elem (cfg.q "tgroup") tattrs none (colspecs ++ bodies) none else
            Node.elem (cfg.q "table") attrs none [Node.elem (cfg.q "tgroup") tattrs none (colspecs ++ bodies) none] none).attr r row.attr ∧
          All₂ (fun c e => EntryFor cfg c e ∧ CellTold cfg.ns t (if tg then Node.elem (cfg.q "tgroup") tattrs none (colspecs ++ bodies) none else
            Node.elem (cfg.q "table") attrs none [Node.elem (cfg.q "tgroup") tattrs none (colspecs ++ bodies) none] none).attr c e.attr) r.owned row.children)
        gs.flatten (bs.flatMap (fun b => b.children.filter (fun n => n.tag?.isSome))) := by
      intro gs bs hsub hall
      induction hall with
      | nil => exact .nil
      | @cons g b gs bs hgb hrest ih =>
        obtain ⟨nodes, rfl, hn⟩ := hgb
        rw [List.flatten_cons, List.flatMap_cons]
        refine All₂.append ?_ (ih (fun g' hg' => hsub g' (by simp [hg'])))
        have hsub' : ∀ r ∈ g, ∀ c ∈ r.owned, c ∈ t.cells := hmem g (hsub g (by simp))
        show All₂ _ g (List.filter _ nodes.flatten)
        clear ih hrest hsub
        induction hn with
        | nil => exact .nil
        | @cons r ns' g nodes hrn hrest ih =>
          obtain ⟨a, es, r1, r2, r3⟩ := calsRow_attrs hrn
          rw [List.flatten_cons, List.filter_append, r3]
          refine .cons ⟨rfl, ?_, ?_⟩ (ih (fun r' hr' => hsub' r' (by simp [hr'])))
          · have := rowTold_of hrow p2 r1
            exact this
          · refine r2.imp_mem ?_
            intro c hc e hce
            have hin := hsub' r (by simp) c hc
            refine ⟨buildCell_entry (hi.grid.valid c hin) hce, ?_⟩
            obtain ⟨b, a', hb, c1, c2⟩ := calsCell_attrs hce
            have hne : t.grid.cells ≠ [] := List.ne_nil_of_mem hin
            have hb' : t.grid.boundingBox = .ok (some b) := by rw [← hb, hB]; exact hbb
            have key : ∀ ax : Axis, (∀ d ∈ t.cells, lastLine ax d ≤ ax.last b) ∧ ∃ d ∈ t.cells, lastLine ax d = ax.last b := by
              intro ax
              obtain ⟨q1, _, q2, _⟩ := lastLineOf_spec ax t.grid hi.grid
              have : lastLineOf ax t.grid = ax.last b := by unfold lastLineOf; rw [hb']
              rw [this] at q1 q2
              exact ⟨q1, q2 hne⟩
            have := cellTold_of (key .col) (key .row) hcol p1 hrow p2 hin c1
            rw [c2]
            exact this
    exact key (fun g hg => hg) h3

/-- **C92**: for every table which can be written, the CALS document tells the looks of the table: the `table` element its frame, the orientation and the
number of columns of the page, its colour and its width in the unit of the configuration; the `table` element, or the `tgroup` element if the option asks
for it, the default separators and the nature of the table; there is one `colspec` per column with its separators, its width and its alignment, one `row`
per row — in the order of the sorting option — with its vertical alignment, its separator and its style, and one `entry` per cell with its separators —
except those of the last column and of the last row, which are drawn by the frame —, its alignments, its colour and its style. A separator is written only
where it differs from that of the table, and no other attribute is written, but those which place the columns and the cells. -/
theorem C92_cals_looks (ns : Option String) (u : List Char) (tg : Bool) (sorting : Option (List String)) (fl : Rat → Rat) (cfg : Cals.Config)
    (hcfg : Cals.Config.new ns u tg sorting fl = .ok cfg) (t : Table Content) (ht : t.Reachable) (tree : Node)
    (h : eval (Cals.generate cfg) t = .ok tree) (rows cols : List (View Content)) (hrows : eval (Table.views .row) t = .ok rows)
    (hcols : eval (Table.views .col) t = .ok cols) :
    ∃ (tgroup : Node) (colspecs bodies : List Node) (order : List (View Content)) (rk : Option String → Int),
      tree.children = [tgroup] ∧ tgroup.children = colspecs ++ bodies ∧
      TableTold cfg.ns tg fl u t cols.length tree.attr tgroup.attr ∧
      All₂ (fun v e => ColspecFor cfg v.pos e ∧ ColTold cfg.ns fl u t (if tg then tgroup else tree).attr v e.attr) cols colspecs ∧
      (∀ b ∈ bodies, ∀ k, b.attr k = none) ∧
      order.Perm rows ∧ (∀ n, RankIs cfg.tgroupSorting n (rk n)) ∧ order.Pairwise (fun r r' => rk r.nature ≤ rk r'.nature) ∧
      (∀ k, order.filter (fun r => rk r.nature = k) = rows.filter (fun r => rk r.nature = k)) ∧
      All₂ (fun r row => row.tag? = some ⟨cfg.ns, "row"⟩ ∧ RowTold cfg.ns t (if tg then tgroup else tree).attr r row.attr ∧
          All₂ (fun c e => EntryFor cfg c e ∧ CellTold cfg.ns t (if tg then tgroup else tree).attr c e.attr) r.owned row.children)
        order (bodies.flatMap (fun b => b.children.filter (fun n => n.tag?.isSome))) :=
  calsLooks_of_inv ns u tg sorting fl cfg hcfg t ht.inv tree h rows cols hrows hcols

/-- the values of an attribute (without namespace) in the elements of a list, as texts -/
def plainValues (nm : String) (l : List Node) : List (List Char) := l.map (fun n => ((n.attr ⟨none, nm⟩).getD "-").toList)

/-- a table with styles everywhere is written, with its looks, whichever element tells those of the whole table: the hypotheses of `C92_cals_looks` hold -/
example : looksDemo.Reachable ∧ Cals.Config.new none ['m', 'm'] false none id = .ok calsConfig ∧
    ((eval (Cals.generate calsConfig) looksDemo).map (fun n => plainValues "frame" [n] ++ plainValues "pgwide" [n] ++ plainValues "rowsep" (n :: n.children) ++
      n.children.flatMap (fun g => plainValues "colsep" g.children ++ g.children.flatMap (fun b => plainValues "valign" b.children ++
        b.children.flatMap (fun r => plainValues "cellstyle" r.children))))) =
      .ok (["topbot", "0", "1", "-", "1", "-", "-", "-", "-", "top", "-", "-", "-", "-", "-", "-", "x", "-", "-"].map String.toList) ∧
    (∃ cfg, Cals.Config.new none ['m', 'm'] true none id = .ok cfg ∧
      ((eval (Cals.generate cfg) looksDemo).map (fun n => plainValues "rowsep" (n :: n.children) ++ plainValues "tgroupstyle" (n :: n.children))) =
      .ok (["-", "1", "-", "wide"].map String.toList)) ∧
    (∃ rows cols, eval (Table.views .row) looksDemo = .ok rows ∧ eval (Table.views .col) looksDemo = .ok cols) := by
  have hv := fun ax => Table.views_run ax looksDemo looksDemo_reachable.inv.grid
  exact ⟨looksDemo_reachable, rfl, by decide +kernel, ⟨_, rfl, by decide +kernel⟩, looksDemo.baseViews .row, looksDemo.baseViews .col, by rw [eval, hv], by rw [eval, hv]⟩

end Benker
