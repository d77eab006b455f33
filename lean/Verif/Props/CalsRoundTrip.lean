import Verif.Lemmas.CalsRoundTrip
import Verif.Props.CalsParser

/-! C45: the CALS parser reads back what the CALS builder writes. -/

namespace Benker
open PyM Cals CalsSpec

/-- no element of the content has the name of a CALS element (in the namespace of the parser) -/
def NoCalsElement (ns : Option String) (c : Option Content) : Prop :=
  ∀ t a, Tok.opening t a ∈ contentToks c → t.ns = ns →
    t.name ∉ ["table", "tgroup", "colspec", "thead", "tfoot", "tbody", "row", "entry"]

theorem unselected_of {pc : CalsP.Config} {c : Option Content} (h : NoCalsElement pc.ns c) : Unselected (CalsP.selected pc) (contentToks c) := by
  intro t a ht
  unfold CalsP.selected
  rw [decide_eq_false_iff_not]
  intro hm
  obtain ⟨n, hn, he⟩ := List.mem_map.mp hm
  subst he
  exact h _ a ht rfl hn

/-- the rows list their cells from left to right: they list all the cells in reading order -/
theorem owned_eq {t : Table Content} (hi : t.Inv) {rows : List (View Content)} (hd : Describes .row t.grid.cells rows)
    (ho : ∀ r ∈ rows, r.owned.Pairwise (fun a b => a.min.x < b.min.x)) : rows.flatMap (·.owned) = t.grid.cells := by
  have hnd : ∀ v ∈ rows, v.owned.Nodup := fun v hv => (ho v hv).imp (fun h e => by subst e; omega)
  refine (perm_owned hi hd hnd).eq_of_pairwise (le := fun a b => CornerBefore a.box.min b.box.min) ?_ ?_ hi.grid.sorted
  · intro a b _ _ h1 h2; unfold CornerBefore at h1 h2; omega
  · rw [List.pairwise_flatMap]
    refine ⟨?_, ?_⟩
    · intro r hr
      refine (ho r hr).imp_of_mem ?_
      intro a b ha hb hlt
      have e1 := ((hd.owned r hr a).mp ha).2
      have e2 := ((hd.owned r hr b).mp hb).2
      simp only [StartsIn, firstLine, Cell.min] at e1 e2 hlt
      unfold CornerBefore; omega
    · rw [List.pairwise_iff_getElem]
      intro i j h1 h2 hij a ha b hb
      have e1 := ((hd.owned _ (List.getElem_mem h1) a).mp ha).2
      have e2 := ((hd.owned _ (List.getElem_mem h2) b).mp hb).2
      rw [hd.pos i h1] at e1
      rw [hd.pos j h2] at e2
      simp only [StartsIn, firstLine, Cell.min] at e1 e2
      unfold CornerBefore; omega

theorem fillHoles_full {t : Table Content} {w h : Nat} (hi : t.Inv) (hne : t.grid.cells ≠ []) (hin : ∀ c ∈ t.grid.cells, c.max.x ≤ w ∧ c.max.y ≤ h)
    (hfull : ∀ p : Coord, 1 ≤ p.x ∧ p.x ≤ w ∧ 1 ≤ p.y ∧ p.y ≤ h → Covered t.grid.cells p) : CalsP.fillHoles t = (.ok (), t) := by
  rcases boundingBox_inv t.grid hi.grid with ⟨h1, _⟩ | ⟨b, _, h2, hv, _, hleast⟩
  · exact absurd h1 hne
  · have hw := hleast ⟨⟨1, 1⟩, ⟨w, h⟩⟩ (by
      intro c hc
      have hvc := hi.grid.valid c hc
      rw [within_iff hvc]
      have := hin c hc
      unfold Box.Valid at hvc
      simp only [Cell.max, InBox] at *; omega)
    rw [within_iff hv] at hw
    unfold CalsP.fillHoles
    have hb : t.boundingBox = .ok (some b) := h2
    simp only [bind_run, get_run, lift_run, hb]
    apply fillMissing_noop
    intro p hp
    apply hfull
    simp only [InBox] at hw hp; omega

/-- what is written, as calls of the builder -/
theorem buildTree_raw {cfg : Cals.Config} {t : Table Content} {bb : Option Box} {cols rows : List (View Content)} {tree : Node}
    (h : buildTree cfg t bb cols rows = .ok tree) :
    ∃ attrs tattrs colspecs bodies, ∃ B : Ctx, B.bb = bb ∧ defaultSep t.styles "x-cell-border-right" = .ok B.colsep ∧
      defaultSep t.styles "x-cell-border-bottom" = .ok B.rowsep ∧
      tree = .elem (cfg.q "table") attrs none [.elem (cfg.q "tgroup") tattrs none (colspecs ++ bodies) none] none ∧
      tableAttrs cfg t = .ok attrs ∧ tgroupAttrs cfg t cols.length = .ok tattrs ∧
      All₂ (fun v e => buildColspec cfg B.colsep B.rowsep v = .ok e) cols colspecs ∧
      All₂ (fun g body => ∃ nodes, body = Node.elem (cfg.q (groupTag (groupNature g))) [] none (List.flatten nodes) none ∧
        All₂ (fun r ns => buildRow cfg B.colsep B.rowsep B.bb r = .ok ns) g nodes) (rowGroups cfg rows) bodies := by
  unfold buildTree at h
  obtain ⟨attrs, h0, h⟩ := bind_ok h
  obtain ⟨colsep, hc, h⟩ := bind_ok h
  obtain ⟨rowsep, hr, h⟩ := bind_ok h
  obtain ⟨tgroup, h1, h⟩ := bind_ok h
  cases h
  unfold buildTgroup at h1
  obtain ⟨tattrs, h1', h1⟩ := bind_ok h1
  obtain ⟨colspecs, h2, h1⟩ := bind_ok h1
  obtain ⟨bodies, h3, h1⟩ := bind_ok h1
  cases h1
  refine ⟨attrs, tattrs, colspecs, bodies, ⟨colsep, rowsep, bb⟩, rfl, hc, hr, rfl, h0, h1', mapM_ok_all₂ h2, (mapM_ok_all₂ h3).imp ?_⟩
  intro g body hb
  unfold buildTbody at hb
  obtain ⟨nodes, hn, hb⟩ := bind_ok hb
  cases hb
  exact ⟨nodes, rfl, mapM_ok_all₂ hn⟩

/-- everything the parser reads back: the cells, and the looks of the rows, of the columns and of the table, as functions of the elements written -/
theorem cals_round_trip (ns : Option String) (u : List Char) (tg : Bool) (sorting : Option (List String)) (fl : Rat → Rat) (bc : Cals.Config)
    (hcfg : Cals.Config.new ns u tg sorting fl = .ok bc) (pc : CalsP.Config) (hns : pc.ns = bc.ns)
    (hunit : ∃ n ∈ Units.unitNames, pc.widthUnit = n.toList)
    (t : Table Content) (ht : t.Reachable) (rows cols : List (View Content)) (hrows : eval (Table.views .row) t = .ok rows)
    (hcols : eval (Table.views .col) t = .ok cols)
    (hne : t.cells ≠ []) (hdis : DisjointCells t.cells)
    (hfull : ∀ p : Coord, 1 ≤ p.x → p.x ≤ cols.length → 1 ≤ p.y → p.y ≤ rows.length → Covered t.cells p)
    (hord : ∀ r ∈ rows, r.owned.Pairwise (fun a b => a.min.x < b.min.x))
    (rk : Option String → Int) (hrk : ∀ n, RankIs bc.tgroupSorting n (rk n)) (hsort : rows.Pairwise (fun r r' => rk r.nature ≤ rk r'.nature))
    (hplain : ∀ c ∈ t.cells, NoCalsElement pc.ns c.content)
    (tree : Node) (h : eval (Cals.generate bc) t = .ok tree) (parent : Option Node) (s : PState) :
    ∃ (t' : Table Content) (rows' cols' : List (View Content)) (B : Ctx) (tgroup : Node) (st : Styles),
      eval (CalsP.parseTable pc parent tree) s = .ok (some t') ∧
      All₂ (Copied bc pc B (kinds rows)) t.cells t'.cells ∧
      eval (Table.views .row) t' = .ok rows' ∧ eval (Table.views .col) t' = .ok cols' ∧ rows'.length = rows.length ∧ cols'.length = cols.length ∧
      (∀ (i : Nat) (v : View Content), rows'[i]? = some v → RowRead bc pc B rows i v.nature v.styles) ∧
      (∀ (i : Nat) (v : View Content), cols'[i]? = some v → ColRead bc pc B cols i v.styles) ∧
      t.boundingBox = .ok B.bb ∧ defaultSep t.styles "x-cell-border-right" = .ok B.colsep ∧ defaultSep t.styles "x-cell-border-bottom" = .ok B.rowsep ∧
      tableAttrs bc t = .ok tree.attrs ∧ tgroupAttrs bc t cols.length = .ok tgroup.attrs ∧ CalsP.tableStyles pc tree = .ok st ∧
      t'.styles = Dict.update (copyStyles (some st)) (CalsP.mapStyle tgroup (pc.q "rowsep") CalsP.sepMap "x-cell-border-bottom"
        (CalsP.mapStyle tgroup (pc.q "colsep") CalsP.sepMap "x-cell-border-right" [])) ∧
      t'.nature = CalsP.tgroupNature (CalsP.tableNature pc tree) (tgroup.attr (pc.q "tgroupstyle")) := by
  have hi := ht.inv
  have hq : ∀ n, bc.q n = pc.q n := fun n => by unfold Cals.Config.q CalsP.Config.q; rw [hns]
  obtain ⟨bb, hbb, he⟩ := generate_eq hi bc
  have hr : rows = t.baseViews .row := by
    unfold eval at hrows; rw [Table.views_run .row t hi.grid] at hrows; cases hrows; rfl
  have hc : cols = t.baseViews .col := by
    unfold eval at hcols; rw [Table.views_run .col t hi.grid] at hcols; cases hcols; rfl
  have hdr : Describes .row t.grid.cells rows := by rw [hr]; exact Table.base_describes hi .row
  have hdc : Describes .col t.grid.cells cols := by rw [hc]; exact Table.base_describes hi .col
  rw [he, ← hr, ← hc] at h
  obtain ⟨attrs, tattrs, colspecs, bodies, B, hB, hB1, hB2, rfl, h1, h1', h2, h3⟩ := buildTree_raw h
  have howned := owned_eq hi hdr hord
  -- the layout
  have hcells : t.cells = t.grid.cells := rfl
  have hwpos : 1 ≤ cols.length := by
    obtain ⟨c, hc⟩ := List.exists_mem_of_ne_nil _ hne
    have e1 := hdc.enough c hc
    have e2 := lines_valid .col c (hi.grid.valid c hc)
    omega
  have htiles : Tiles cols.length rows.length t.grid.cells :=
    ⟨hi.grid.valid, hi.grid.sorted, hdis, fun c hc => ⟨hdc.enough c hc, hdr.enough c hc⟩, hfull⟩
  have hplan : Plan pc cols.length rows.length rows := by
    refine ⟨by rw [howned]; exact htiles, ?_, rfl, hwpos, ?_⟩
    · intro i hlt c hc
      have := ((hdr.owned _ (List.getElem_mem hlt) c).mp hc).2
      rw [hdr.pos i hlt] at this
      exact this
    · intro r hr c hc
      exact unselected_of (hplain c ((hdr.owned r hr c).mp hc).1)
  -- the groups
  have hrank : rk = rank bc := by
    funext n; exact rankIs_unique (hrk n) (rank_spec bc (config_new_sorting hcfg "body" (by simp)) n)
  have hgroups : (rowGroups bc rows).flatten = rows := by
    have hconst := rowGroups_spec bc rows
    unfold rowGroups
    rw [sortedBy_of_sorted, groupBy_flatten]
    have hfl := groupBy_flatten (fun r : View Content => r.nature) rows
    have hc := groupBy_const (fun r : View Content => r.nature) rows
    rw [← hfl, hrank] at hsort
    rw [List.pairwise_flatten] at hsort
    refine hsort.2.imp_of_mem ?_
    intro g g' hg hg' hle
    have n1 := (hc g hg).1
    have n2 := (hc g' hg').1
    cases g with
    | nil => exact absurd rfl n1
    | cons r g => cases g' with
      | nil => exact absurd rfl n2
      | cons r' g' => exact hle r (by simp) r' (by simp)
  -- the run
  generalize htree : (Node.elem (bc.q "table") attrs none [.elem (bc.q "tgroup") tattrs none (colspecs ++ bodies) none] none) = tree at *
  have htag : tree.tag? = some (pc.q "table") := by rw [← htree, ← hq]; rfl
  obtain ⟨st, hst⟩ := tableStyles_ok (n := tree) hq (by rw [← htree]; exact h1) hunit
  generalize htg : Node.elem (bc.q "tgroup") tattrs none (colspecs ++ bodies) none = tgroup at *
  have htagg : tgroup.tag? = some (pc.q "tgroup") := by rw [← htg, ← hq]; rfl
  have hchg : tgroup.children = colspecs ++ bodies := by rw [← htg]; rfl
  let st' := CalsP.mapStyle tgroup (pc.q "rowsep") CalsP.sepMap "x-cell-border-bottom" (CalsP.mapStyle tgroup (pc.q "colsep") CalsP.sepMap "x-cell-border-right" [])
  let G0 : Goal := ⟨cols.length, rows.length, cols.length, RowRead bc pc B rows, ColRead bc pc B cols, copyStyles (some st), CalsP.tableNature pc tree⟩
  let G : Goal := ⟨cols.length, rows.length, cols.length, RowRead bc pc B rows, ColRead bc pc B cols, Dict.update (copyStyles (some st)) st',
    CalsP.tgroupNature (CalsP.tableNature pc tree) (tgroup.attr (pc.q "tgroupstyle"))⟩
  have run1 : Runs (fun s => s = PState.init) (AtCols G0 0) (CalsP.parseTableElem pc tree) := by
    rintro s rfl
    have hnew : Table.new ([] : List (Cell Content)) (some st) (CalsP.tableNature pc tree) =
        .ok ⟨copyStyles (some st), CalsP.tableNature pc tree, Grid.empty, none, none⟩ := rfl
    refine ⟨{ PState.init with table := some ⟨copyStyles (some st), CalsP.tableNature pc tree, Grid.empty, none, none⟩ }, ?_,
      ⟨_, rfl, rfl, ⟨Grid.empty_inv, fun ax vs hv => by cases ax <;> cases hv⟩, rfl, rfl, rfl, by omega, ⟨rfl, rfl⟩, by omega⟩⟩
    unfold CalsP.parseTableElem
    simp only [bind_run, lift_run, hst, hnew]
    rfl
  have run2 : Runs (AtCols G0 0) (AtGap G (Copied bc pc B (kinds rows)) (rows.flatMap (·.owned)) rows.length)
      (CalsP.loop pc 1 (walkList (CalsP.selected pc) (some tree) tree.children)) := by
    have hch : tree.children = [tgroup] := by rw [← htree]; rfl
    rw [hch]
    refine runs_loop_cons ?_ runs_pure
    refine runs_elem htagg (by simp) (Q := AtCols G 0) ?_ ?_ (runs_unit htagg (by decide) (by decide))
    · rintro ⟨a, b, r, tb⟩ ⟨t0, e1, e2, e3, e4, e5, e6, e7, ⟨e8, e9⟩, _⟩
      simp only at e1 e2
      subst e1 e2
      have e0 : CalsP.onStart pc (some tree) tgroup = CalsP.parseTgroup pc tgroup := by
        simp [CalsP.onStart, htagg, CalsP.Config.q]
      rw [e0]
      exact ⟨_, rfl, _, rfl, rfl, ⟨e3.grid, e3.views⟩, e4, e5, e6, e7, ⟨congrArg (fun x => Dict.update x st') e8, congrArg (fun x => CalsP.tgroupNature x _) e9⟩, by omega⟩
    · rw [hchg]
      refine runs_loop_append (Q := AtCols G cols.length) ?_ ?_
      · have := runs_colspecs (G := G) hq tgroup htagg colspecs 0 (by
          intro j hj
          have hl := h2.length
          have hb := h2.getElem j (by omega) hj
          have := buildColspec_ok hb
          rw [hdc.pos j (by omega)] at this
          rw [Nat.zero_add]
          exact ⟨this, _, _, List.getElem?_eq_getElem (by omega), hb, rfl⟩)
        rw [← h2.length, Nat.zero_add] at this
        exact this
      · have := runs_bodies (B := B) (G := G) hq rfl hplan (some tgroup) h3 (pre := []) (by rw [hgroups]; rfl) (fun g hg => ((rowGroups_spec bc rows).1 g hg).2)
        intro s hs
        exact this s (cols_gap (G := G) (Nat.le_refl _) hs)
  obtain ⟨s1, r1, q1⟩ := run1 _ rfl
  obtain ⟨s2, r2, q2⟩ := run2 _ q1
  obtain ⟨a2, b2, row2, tb2⟩ := s2
  obtain ⟨t', e1, e2, href⟩ := q2
  simp only at e1 e2
  subst e1 e2
  rw [howned] at href
  have hb : ∀ c d, Copied bc pc B (kinds rows) c d → d.box = c.box := fun _ _ h => h.1
  have hfill : CalsP.fillHoles t' = (.ok (), t') := by
    refine fillHoles_full (w := cols.length) (h := rows.length) href.inv ?_ ?_ ?_
    · intro hnil
      have := href.cells.length
      rw [hnil] at this
      exact hne (List.eq_nil_of_length_eq_zero this)
    · intro d hd
      obtain ⟨c, hc, hr⟩ := href.cells.mem_right hd
      have := htiles.inside c hc
      simp only [Cell.max, hr.1] at this ⊢; exact this
    · intro p hp
      exact href.endRow hb (rest := []) (by simpa using htiles) (Nat.le_refl _) (by simp) p hp
  have hcl : (t'.baseViews .col).length = cols.length := by
    have l1 := href.cols
    obtain ⟨c, hc, hp⟩ := hfull ⟨cols.length, 1⟩ (by simp only; omega) (by simp only; omega) (by simp only; omega) (by
      obtain ⟨c, hc⟩ := List.exists_mem_of_ne_nil _ hne
      have e1 := hdr.enough c hc
      have e2 := lines_valid .row c (hi.grid.valid c hc)
      simp only; omega)
    obtain ⟨d, hd, hr⟩ := href.cells.mem_left hc
    have l2 := (Table.base_describes href.inv .col).enough d hd
    have : d.box = c.box := hr.1
    simp only [InBox, lastLine, Cell.max] at hp l2
    have l1' : (t'.baseViews .col).length ≤ cols.length := l1
    rw [this] at l2
    omega
  have hrl : (t'.baseViews .row).length = rows.length := by
    have l1 := href.enough
    have l2 : (t'.baseViews .row).length ≤ rows.length := href.notMore
    omega
  refine ⟨t', t'.baseViews .row, t'.baseViews .col, B, tgroup, st, ?_, href.cells, ?_, ?_, hrl, hcl, ?_, ?_, ?_, hB1, hB2, ?_, ?_, hst, href.same.1, href.same.2⟩
  · unfold eval
    rw [CalsP.parseTable_run parent htag]
    simp only [bind_run, r1, r2, onTable_mk, hfill, get_run, pure_run]
  · unfold eval; rw [Table.views_run .row t' href.inv.grid]
  · unfold eval; rw [Table.views_run .col t' href.inv.grid]
  · intro i v hv
    have hlt := (List.getElem?_eq_some_iff.mp hv).1
    obtain ⟨v', hv', hok⟩ := href.rowLooks i (by omega)
    rw [hv] at hv'; cases hv'
    exact hok
  · intro i v hv
    have hlt := (List.getElem?_eq_some_iff.mp hv).1
    obtain ⟨vs, v', hvs, hv', hok⟩ := href.colLooks i (by show i < cols.length; omega)
    have e1 : t'.baseViews .col = vs := by
      show (t'.cols).getD _ = _
      rw [hvs]; rfl
    rw [e1, hv'] at hv; cases hv
    exact hok
  · rw [hB]; exact hbb
  · rw [← htree]; exact h1
  · rw [← htg]; exact h1'

/-- **C45**: for every table without holes nor overlaps, whose rows list their cells from left to right and are already in the order of the
groups, whose cells contain no CALS element, and which the builder accepts: parsing the generated table gives a table with the same
cells, in the same order: same positions, same spans, same content (the same stream of tags and characters), same text, and the nature of the row;
each row gets its nature back (the natures other than `header` and `footer` being read as `body`). The parser may have been used before. -/
theorem C45_round_trip (ns : Option String) (u : List Char) (tg : Bool) (sorting : Option (List String)) (fl : Rat → Rat) (bc : Cals.Config)
    (hcfg : Cals.Config.new ns u tg sorting fl = .ok bc) (pc : CalsP.Config) (hns : pc.ns = bc.ns)
    (hunit : ∃ n ∈ Units.unitNames, pc.widthUnit = n.toList)
    (t : Table Content) (ht : t.Reachable) (rows cols : List (View Content)) (hrows : eval (Table.views .row) t = .ok rows)
    (hcols : eval (Table.views .col) t = .ok cols)
    (hne : t.cells ≠ []) (hdis : DisjointCells t.cells)
    (hfull : ∀ p : Coord, 1 ≤ p.x → p.x ≤ cols.length → 1 ≤ p.y → p.y ≤ rows.length → Covered t.cells p)
    (hord : ∀ r ∈ rows, r.owned.Pairwise (fun a b => a.min.x < b.min.x))
    (rk : Option String → Int) (hrk : ∀ n, RankIs bc.tgroupSorting n (rk n)) (hsort : rows.Pairwise (fun r r' => rk r.nature ≤ rk r'.nature))
    (hplain : ∀ c ∈ t.cells, NoCalsElement pc.ns c.content)
    (tree : Node) (h : eval (Cals.generate bc) t = .ok tree) (parent : Option Node) (s : PState) :
    ∃ t' rows', eval (CalsP.parseTable pc parent tree) s = .ok (some t') ∧
      All₂ (fun c d => d.box = c.box ∧ contentToks d.content = contentToks c.content ∧ Content.text? d.content = Content.text? c.content ∧
        ∃ r ∈ rows, r.pos = c.min.y ∧ d.nature = some (rowKind r.nature)) t.cells t'.cells ∧
      eval (Table.views .row) t' = .ok rows' ∧ rows'.map (·.nature) = rows.map (fun r => some (rowKind r.nature)) := by
  obtain ⟨t', rows', cols', B, tgroup, st, h1, h2, h3, h4, h5, h6, h7, -⟩ := cals_round_trip ns u tg sorting fl bc hcfg pc hns hunit t ht rows cols hrows hcols hne hdis hfull hord rk hrk hsort hplain tree h parent s
  have hi := ht.inv
  have hr : rows = t.baseViews .row := by
    unfold eval at hrows; rw [Table.views_run .row t hi.grid] at hrows; cases hrows; rfl
  have hdr : Describes .row t.grid.cells rows := by rw [hr]; exact Table.base_describes hi .row
  refine ⟨t', rows', h1, ?_, h3, ?_⟩
  · refine h2.imp_mem ?_
    intro c hc d hd
    refine ⟨hd.1, hd.2.1, hd.2.2.1, ?_⟩
    have f1 := lines_valid .row c (hi.grid.valid c hc)
    have f2 := hdr.enough c hc
    simp only [firstLine, lastLine] at f1 f2
    have hlt : c.min.y.toNat - 1 < rows.length := by omega
    refine ⟨rows[c.min.y.toNat - 1], List.getElem_mem hlt, by rw [hdr.pos _ hlt]; omega, ?_⟩
    rw [hd.2.2.2.1]; unfold kinds; rw [List.getElem?_eq_getElem hlt]; rfl
  · apply List.ext_getElem?
    intro i
    rw [List.getElem?_map, List.getElem?_map]
    by_cases hlt : i < rows.length
    · have hlt' : i < rows'.length := by omega
      have := (h7 i _ (List.getElem?_eq_getElem hlt')).1
      rw [List.getElem?_eq_getElem hlt', List.getElem?_eq_getElem hlt]
      simp only [Option.map_some, this]
      unfold kinds; rw [List.getElem?_eq_getElem hlt]; rfl
    · rw [List.getElem?_eq_none (by omega), List.getElem?_eq_none (by omega)]; rfl

/-- a table with a header row, a cell over two columns, a cell over two rows, a formatted content and an empty cell -/
def roundDemo : Table Content :=
  Table.runFrom ⟨[], none, ⟨[]⟩, none, none⟩
    [.access .row, .access .col,
     .grid (.set (.tuple [.int 1, .int 1]) ⟨some (.text "a"), none, none, 1, 1, 2, 1⟩),
     .grid (.set (.tuple [.int 3, .int 1]) ⟨some (.num "12"), none, none, 1, 1, 1, 1⟩),
     .grid (.set (.tuple [.int 1, .int 2]) ⟨some (.seq [some (.text "b"), some (.node nodeDemo)]), none, none, 1, 1, 1, 2⟩),
     .grid (.set (.tuple [.int 2, .int 2]) ⟨none, none, none, 1, 1, 2, 1⟩),
     .grid (.set (.tuple [.int 2, .int 3]) ⟨some (.text "c"), none, none, 1, 1, 2, 1⟩),
     .setNature .row 1 (some "header"), .setNature .row 3 (some "odd")]

theorem roundDemo_reachable : roundDemo.Reachable := ⟨[], none, none, _, _, by simp, rfl, rfl⟩

theorem roundDemo_boxes : roundDemo.grid.cells.map (·.box) =
    [⟨⟨1, 1⟩, ⟨2, 1⟩⟩, ⟨⟨3, 1⟩, ⟨3, 1⟩⟩, ⟨⟨1, 2⟩, ⟨1, 3⟩⟩, ⟨⟨2, 2⟩, ⟨3, 2⟩⟩, ⟨⟨2, 3⟩, ⟨3, 3⟩⟩] := by decide +kernel

/-- the hypotheses of `C45_round_trip` hold of a table with spans, a header row and a formatted content -/
example : ∃ (pc : CalsP.Config) (rows cols : List (View Content)) (rk : Option String → Int) (tree : Node),
    Cals.Config.new none ['m', 'm'] false none id = .ok calsConfig ∧ pc.ns = calsConfig.ns ∧
    (∃ n ∈ Units.unitNames, pc.widthUnit = n.toList) ∧ roundDemo.Reachable ∧
    eval (Table.views .row) roundDemo = .ok rows ∧ eval (Table.views .col) roundDemo = .ok cols ∧ roundDemo.cells ≠ [] ∧
    DisjointCells roundDemo.cells ∧
    (∀ p : Coord, 1 ≤ p.x → p.x ≤ cols.length → 1 ≤ p.y → p.y ≤ rows.length → Covered roundDemo.cells p) ∧
    (∀ r ∈ rows, r.owned.Pairwise (fun a b => a.min.x < b.min.x)) ∧
    (∀ n, RankIs calsConfig.tgroupSorting n (rk n)) ∧ rows.Pairwise (fun r r' => rk r.nature ≤ rk r'.nature) ∧
    (∀ c ∈ roundDemo.cells, NoCalsElement pc.ns c.content) ∧
    eval (Cals.generate calsConfig) roundDemo = .ok tree := by
  have hv := fun ax => Table.views_run ax roundDemo roundDemo_reachable.inv.grid
  have hok : (eval (Cals.generate calsConfig) roundDemo).map (fun _ => ()) = .ok () := by decide +kernel
  obtain ⟨tree, htree⟩ : ∃ tree, eval (Cals.generate calsConfig) roundDemo = .ok tree := by
    cases h : eval (Cals.generate calsConfig) roundDemo with
    | ok tree => exact ⟨tree, rfl⟩
    | error e => rw [h] at hok; cases hok
  have hl1 : (roundDemo.baseViews .row).length = 3 := by decide +kernel
  have hl2 : (roundDemo.baseViews .col).length = 3 := by decide +kernel
  refine ⟨⟨none, ['m', 'm'], id⟩, roundDemo.baseViews .row, roundDemo.baseViews .col, rank calsConfig, tree, rfl, rfl,
    ⟨"mm", by decide, rfl⟩, roundDemo_reachable, by rw [eval, hv], by rw [eval, hv], ?_, ?_, ?_, by decide +kernel,
    rank_spec calsConfig (by decide), by decide +kernel, ?_, htree⟩
  · intro h
    have := roundDemo_boxes
    rw [show roundDemo.grid.cells = [] from h] at this
    simp at this
  · have : (roundDemo.grid.cells.map (·.box)).Pairwise (fun a b => ¬ Overlap a b) := by
      rw [roundDemo_boxes]
      simp only [List.pairwise_cons, List.mem_cons, List.not_mem_nil, or_false]
      simp only [Overlap, InBox]
      refine ⟨?_, ?_, ?_, ?_, ?_, List.Pairwise.nil⟩ <;>
      · rintro a h ⟨p, hp⟩
        rcases h with rfl | rfl | rfl | rfl <;> simp only at hp <;> omega
    rw [List.pairwise_map] at this
    exact this
  · intro p h1 h2 h3 h4
    rw [hl2] at h2; rw [hl1] at h4
    have : ∃ b ∈ roundDemo.grid.cells.map (·.box), InBox p b := by
      rw [roundDemo_boxes]
      simp only [List.mem_cons, List.not_mem_nil, or_false, exists_eq_or_imp, exists_eq_left, InBox]
      omega
    obtain ⟨b, hb, hp⟩ := this
    obtain ⟨c, hc, rfl⟩ := List.mem_map.mp hb
    exact ⟨c, hc, hp⟩
  · have : ∀ c ∈ roundDemo.grid.cells, ∀ tk ∈ contentToks c.content, (match tk with
        | .opening t _ => decide (t.name ∉ ["table", "tgroup", "colspec", "thead", "tfoot", "tbody", "row", "entry"])
        | _ => true) = true := by decide +kernel
    intro c hc t a ht _
    have := this c hc _ ht
    simpa using this

/-! ### C62 -/

/-- texts of the entries of a tree, in document order -/
def entryTexts (n : Node) : List (Option String) :=
  ((preorder n).filter (fun e => e.tag? = some ⟨none, "entry"⟩)).map (·.text)

/-- a table filled from right to left: the views were read first -/
def backwards : Table Content :=
  Table.runFrom ⟨[], none, ⟨[]⟩, none, none⟩
    [.access .row, .access .col,
     .grid (.set (.tuple [.int 2, .int 1]) ⟨some (.text "b"), none, none, 1, 1, 1, 1⟩),
     .grid (.set (.tuple [.int 1, .int 1]) ⟨some (.text "a"), none, none, 1, 1, 1, 1⟩)]

/-- **C62 is false of the code**: the entries are written in the order of insertion, not in the order of the columns: the cells of a table filled from
right to left are swapped by the CALS builder, and parsing the result gives a table with `a` and `b` exchanged. -/
theorem C62_order_counterexample : backwards.Reachable ∧ backwards.cells.map (fun c => Content.text? c.content) = ["a", "b"] ∧
    (eval (Cals.generate calsConfig) backwards).map entryTexts = .ok [some "b", some "a"] ∧
    ∃ tree t', eval (Cals.generate calsConfig) backwards = .ok tree ∧
      eval (CalsP.parseTable ⟨none, ['m', 'm'], id⟩ none tree) PState.init = .ok (some t') ∧
      t'.cells.map (fun c => Content.text? c.content) = ["b", "a"] := by
  refine ⟨⟨[], none, none, _, _, by simp, rfl, rfl⟩, by decide +kernel, by decide +kernel, ?_⟩
  have h : (do
      let tree ← eval (Cals.generate calsConfig) backwards
      let t' ← eval (CalsP.parseTable ⟨none, ['m', 'm'], id⟩ none tree) PState.init
      pure (t'.map (fun (t : Table Content) => t.cells.map (fun (c : Cell Content) => Content.text? c.content)))) = .ok (some ["b", "a"]) := by decide +kernel
  cases h1 : eval (Cals.generate calsConfig) backwards with
  | error e => rw [h1] at h; cases h
  | ok tree =>
    rw [h1] at h
    change (do
      let t' ← eval (CalsP.parseTable ⟨none, ['m', 'm'], id⟩ none tree) PState.init
      pure (t'.map (fun (t : Table Content) => t.cells.map (fun (c : Cell Content) => Content.text? c.content)))) = _ at h
    cases h2 : eval (CalsP.parseTable ⟨none, ['m', 'm'], id⟩ none tree) PState.init with
    | error e => rw [h2] at h; cases h
    | ok o =>
      rw [h2] at h
      cases o with
      | none => cases h
      | some t' =>
        refine ⟨tree, t', rfl, h2, ?_⟩
        have := Except.ok.inj h
        exact Option.some.inj this

/-- **C62 is false of the code**: the only cell of the table built by `table[(1, 1)] = Cell("a")` is written twice. -/
theorem C62_repetition_counterexample : ∃ t : Table Content, t.Reachable ∧
    t.cells.map (fun c => Content.text? c.content) = ["a"] ∧
    (eval (Cals.generate calsConfig) t).map entryTexts = .ok [some "a", some "a"] :=
  ⟨Table.runFrom ⟨[], none, ⟨[]⟩, none, none⟩ [.grid (.set (.tuple [.int 1, .int 1]) ⟨some (.text "a"), none, none, 1, 1, 1, 1⟩)],
    ⟨[], none, none, _, _, by simp, rfl, rfl⟩, by decide +kernel, by decide +kernel⟩

/-- **C62, part proved**: right after a successful deletion, merge or expansion, whatever the history, each row lists its cells from left to right, and
the rows list all the cells exactly once, in reading order; then the generated table has exactly these entries, row by row. -/
theorem C62_entries_in_order_partial (cfg : Cals.Config) (t0 : Table Content) (ht0 : t0.Reachable) (op : Grid.Op Content)
    (hop : (Table.Op.grid op).Refreshing) (hok : eval (Table.runGridOp op) t0 = .ok ()) (tree : Node)
    (h : eval (Cals.generate cfg) (exec (Table.runGridOp op) t0) = .ok tree) :
    ∃ (rows : List (View Content)) (attrs tattrs : Dict QName String) (colspecs bodies : List Node) (groups : List (List (View Content))),
      eval (Table.views .row) (exec (Table.runGridOp op) t0) = .ok rows ∧
      rows.flatMap (·.owned) = (exec (Table.runGridOp op) t0).cells ∧
      (∀ r ∈ rows, r.owned.Pairwise (fun a b => a.min.x < b.min.x)) ∧
      tree = .elem (cfg.q "table") attrs none [.elem (cfg.q "tgroup") tattrs none (colspecs ++ bodies) none] none ∧
      groups.flatten.Perm rows ∧
      All₂ (fun g body => ∃ tag nodes, body = Node.elem (cfg.q tag) [] none (List.flatten nodes) none ∧ All₂ (RowFor cfg) g nodes) groups bodies := by
  have ht : (exec (Table.runGridOp op) t0).Reachable := ht0.step (.grid op)
  obtain ⟨vs, hvs, _, hview⟩ := C32_refresh t0 ht0 op hop hok .row
  generalize exec (Table.runGridOp op) t0 = t at *
  have hi := ht.inv
  have hb : t.baseViews .row = vs := by unfold Table.baseViews; rw [hvs]; rfl
  have hd : Describes .row t.grid.cells vs := by rw [← hb]; exact Table.base_describes hi .row
  have hord : ∀ r ∈ vs, r.owned.Pairwise (fun a b => a.min.x < b.min.x) := by
    intro r hr
    obtain ⟨i, hlt, rfl⟩ := List.getElem_of_mem hr
    obtain ⟨hp, ho, _⟩ := hview i hlt
    have hs : (vs[i]).owned.Pairwise (fun a b => CornerBefore a.box.min b.box.min) := by
      rw [ho]; exact hi.grid.sorted.filter _
    refine hs.imp_of_mem ?_
    intro a b ha hb hlt'
    have e1 := ((hd.owned _ hr a).mp ha).2
    have e2 := ((hd.owned _ hr b).mp hb).2
    simp only [StartsIn, firstLine, Cell.min] at e1 e2 ⊢
    unfold CornerBefore at hlt'; omega
  obtain ⟨bb, _, he⟩ := generate_eq hi cfg
  rw [he, hb] at h
  obtain ⟨attrs, tattrs, colspecs, bodies, rfl, _, _, _, h3⟩ := buildTree_ok (fun r hr c hc => hi.grid.valid c ((hd.owned r hr c).mp hc).1) h
  refine ⟨vs, attrs, tattrs, colspecs, bodies, rowGroups cfg vs, by rw [eval, Table.views_run .row t hi.grid, hb], owned_eq hi hd hord, hord, rfl,
    (rowGroups_spec cfg vs).2.1, ?_⟩
  refine h3.imp_mem ?_
  rintro g hg body ⟨nodes, rfl, hall⟩
  exact ⟨_, nodes, rfl, hall⟩

example : ∃ op : Grid.Op Content, (Table.Op.grid op).Refreshing ∧ eval (Table.runGridOp op) backwards = .ok () ∧
    ((eval (Cals.generate calsConfig) (exec (Table.runGridOp op) backwards)).map entryTexts) = .ok [some "a", some "b"] :=
  ⟨.merge (.tuple [.int 1, .int 1]) (.tuple [.int 1, .int 1]) (fun a _ => .ok a), trivial, by decide +kernel, by decide +kernel⟩

end Benker
