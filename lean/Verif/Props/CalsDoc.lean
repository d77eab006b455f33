import Verif.Lemmas.CalsDoc

/-! C73: what the CALS parser reads in a CALS document. -/

namespace Benker
open PyM Cals CalsSpec

variable {pc : CalsP.Config}

/-- the entries, in the order of the document, tile the table -/
theorem doc_tiles {w h : Nat} {d : CalsDoc} (hd : d.Drawn pc.ns w h) : Tiles w h (docCells d.rows) := by
  have hcells : docCells d.rows = d.entries.map (fun e => DocEntry.cell e.1 e.2) := by
    unfold docCells CalsDoc.entries
    rw [List.map_flatMap]
    congr 1
    funext r
    simp
  have hy : ∀ e ∈ d.entries, 1 ≤ e.2.box.min.y := by
    intro e he
    obtain ⟨r, hr, he⟩ := List.mem_flatMap.mp he
    obtain ⟨e', he', rfl⟩ := List.mem_map.mp he
    obtain ⟨i, hi, rfl⟩ := List.getElem_of_mem hr
    have := hd.starts i _ (List.getElem?_eq_getElem hi) e' he'
    simp only; omega
  refine ⟨?_, ?_, ?_, ?_, ?_⟩
  · intro c hc
    rw [hcells] at hc
    obtain ⟨e, he, rfl⟩ := List.mem_map.mp hc
    have h1 := hd.valid e he
    have h2 := hy e he
    simp only [DocEntry.cell, Box.Valid]; omega
  · unfold docCells
    rw [List.pairwise_flatMap]
    refine ⟨?_, ?_⟩
    · intro r hr
      rw [List.pairwise_map]
      obtain ⟨i, hi, rfl⟩ := List.getElem_of_mem hr
      refine (hd.leftToRight _ hr).imp_of_mem ?_
      intro a b ha hb hlt
      have e1 := hd.starts i _ (List.getElem?_eq_getElem hi) a ha
      have e2 := hd.starts i _ (List.getElem?_eq_getElem hi) b hb
      simp only [DocEntry.cell, CornerBefore]; omega
    · rw [List.pairwise_iff_getElem]
      intro i j hi hj hij a ha b hb
      obtain ⟨a, ha', rfl⟩ := List.mem_map.mp ha
      obtain ⟨b, hb', rfl⟩ := List.mem_map.mp hb
      have e1 := hd.starts i _ (List.getElem?_eq_getElem hi) a ha'
      have e2 := hd.starts j _ (List.getElem?_eq_getElem hj) b hb'
      simp only [DocEntry.cell, CornerBefore]; omega
  · rw [hcells]
    unfold DisjointCells
    rw [List.pairwise_map]
    exact hd.disjoint
  · intro c hc
    rw [hcells] at hc
    obtain ⟨e, he, rfl⟩ := List.mem_map.mp hc
    have h1 := hd.valid e he
    simp only [DocEntry.cell, Cell.max]; omega
  · intro p h1 h2 h3 h4
    obtain ⟨e, he, hp⟩ := hd.full p h1 h2 h3 h4
    exact ⟨_, by rw [hcells]; exact List.mem_map_of_mem he, hp⟩

theorem kindOf_iff {body : Node} {k : String} (h : CalsP.rowNature (CalsP.localname body) = .ok k) : KindOf body k := by
  unfold CalsP.rowNature CalsP.localname at h
  cases ht : body.tag? with
  | none => rw [ht] at h; cases h
  | some t =>
    rw [ht] at h
    refine ⟨t, ht, ?_⟩
    simp only [Dict.get?_cons] at h
    split at h
    · rename_i v hv
      cases h
      by_cases h1 : "thead" = t.name
      · rw [if_pos h1] at hv; cases hv; simp [← h1]
      · rw [if_neg h1] at hv
        by_cases h2 : "tfoot" = t.name
        · rw [if_pos h2] at hv; cases hv; simp [← h2]
        · rw [if_neg h2] at hv
          by_cases h3 : "tbody" = t.name
          · rw [if_pos h3] at hv; cases hv; simp [← h3]
          · rw [if_neg h3] at hv; cases hv
    · cases h

theorem doc_plan {w h : Nat} {d : CalsDoc} (hn : d.Nested pc.ns) (hd : d.Drawn pc.ns w h) : DocPlan pc w h d.rows := by
  refine ⟨doc_tiles hd, hd.starts, hd.height, hd.notEmpty.1, ?_⟩
  intro r hr
  obtain ⟨h1, h2⟩ := hn.rows r hr
  refine ⟨h1, h2, ?_, ?_⟩
  · intro e he
    have hm : (r.1, e) ∈ d.entries := List.mem_flatMap.mpr ⟨r, hr, List.mem_map_of_mem he⟩
    obtain ⟨h3, h4⟩ := hn.entries _ hm
    obtain ⟨h5, h6⟩ := hd.spans _ hm
    exact ⟨h3, h4, h5, h6⟩
  · obtain ⟨b, hb, hr⟩ := List.mem_flatMap.mp hr
    obtain ⟨r', _, rfl⟩ := List.mem_map.mp hr
    obtain ⟨⟨name, hname, htag⟩, _⟩ := hn.bodies b hb
    simp only
    unfold CalsP.localname
    rw [htag]
    simp only [List.mem_cons, List.not_mem_nil, or_false] at hname
    rcases hname with rfl | rfl | rfl <;> exact ⟨_, rfl⟩

/-- the attributes which may be refused: the frame must be one of the six frames of CALS, and the width must be readable -/
structure Accepted (pc : CalsP.Config) (table : Node) : Prop where
  frame : ∀ f, table.attr ⟨pc.ns, "frame"⟩ = some f → f ≠ "" → f ∈ frames.map (·.1)
  width : ∀ s, table.attr ⟨pc.ns, "width"⟩ = some s → s ≠ "" → ∃ w, Units.rewriteWidth pc.fl pc.widthUnit s.toList = .ok w

theorem accepted_ok {table : Node} (h : Accepted pc table) : ∃ st, CalsP.tableStyles pc table = .ok st := by
  have hf : ∃ st0, CalsP.getFrameStyles (table.attr (pc.q "frame")) = .ok st0 := by
    have := h.frame
    change ∀ f, table.attr (pc.q "frame") = some f → _ at this
    cases hfr : table.attr (pc.q "frame") with
    | none => exact ⟨_, rfl⟩
    | some f =>
      by_cases he : f = ""
      · subst he; exact ⟨_, rfl⟩
      · have hm := this f hfr he
        simp only [frames, List.map_cons, List.map_nil, List.mem_cons, List.not_mem_nil, or_false] at hm
        rcases hm with rfl | rfl | rfl | rfl | rfl | rfl <;> exact ⟨_, rfl⟩
  obtain ⟨st0, hf⟩ := hf
  have hw := h.width
  change ∀ s, table.attr (pc.q "width") = some s → _ at hw
  unfold CalsP.tableStyles
  simp only [hf, bind, Except.bind, pure, Except.pure]
  cases hwd : table.attr (pc.q "width") with
  | none => exact ⟨_, rfl⟩
  | some s =>
    simp only
    by_cases he : s = ""
    · rw [if_pos he]; exact ⟨_, rfl⟩
    · rw [if_neg he]
      obtain ⟨w, hw⟩ := hw s hwd he
      rw [hw]
      exact ⟨_, rfl⟩

theorem all₂_map_left {α β γ : Type} {R : β → γ → Prop} {f : α → β} : ∀ {l : List α} {m : List γ}, All₂ R (l.map f) m → All₂ (fun a c => R (f a) c) l m
  | [], _, h => by cases h; exact .nil
  | a :: l, _, h => by
    cases h with
    | cons h1 h2 => exact .cons h1 (all₂_map_left h2)

theorem pairwise_unique {α : Type} {R : α → α → Prop} {l : List α} (h : l.Pairwise R) {a b : α} (ha : a ∈ l) (hb : b ∈ l)
    (hs : ∀ x y, R x y → R y x) (hn : ¬ R a b) : a = b := by
  induction h with
  | nil => cases ha
  | @cons c l h1 _ ih =>
    rcases List.mem_cons.mp ha with ha | ha
    · rcases List.mem_cons.mp hb with hb | hb
      · rw [ha, hb]
      · rw [ha] at hn; exact absurd (h1 b hb) hn
    · rcases List.mem_cons.mp hb with hb | hb
      · rw [hb] at hn; exact absurd (hs _ _ (h1 a ha)) hn
      · exact ih ha hb

/-- **C73**: a CALS table is read as it is drawn, whatever its attributes, for every document whose entries fill a rectangle: there is one cell for each entry,
at the same place, with the same content, whose kind is that of the group; the looks of the cells, of the rows, of the columns and of the table are those
which their attributes tell.  The parser may have been used before. -/
theorem C73_reading (d : CalsDoc) (w h : Nat) (hn : d.Nested pc.ns) (hd : d.Drawn pc.ns w h) (hc : d.Columns pc.ns w) (ha : Accepted pc d.table)
    (parent : Option Node) (s : PState) :
    ∃ (t : Table Content) (rows cols : List (View Content)), eval (CalsP.parseTable pc parent d.table) s = .ok (some t) ∧
      eval (Table.views .row) t = .ok rows ∧ eval (Table.views .col) t = .ok cols ∧ rows.length = h ∧ cols.length = w ∧
      All₂ (fun e c => c.box = e.2.box ∧ contentToks c.content = insideToks e.2.node ∧ (Content.text? c.content).toList = charsOf (insideToks e.2.node) ∧
        (∃ k, KindOf e.1 k ∧ c.nature = some k) ∧ EntryShown pc.ns e.2.node c.styles) d.entries t.cells ∧
      All₂ (fun r v => (∃ k, KindOf r.1 k ∧ v.nature = some k) ∧ RowShown pc.ns r.1 r.2.node v.styles) d.rows rows ∧
      (∀ c ∈ d.cols, ∃ v, cols[c.num - 1]? = some v ∧ ColShown pc.ns c.node v.styles) ∧
      TableShown pc.ns (Units.rewriteWidth pc.fl pc.widthUnit) d.table d.tgroup t.styles ∧
      TableNature (d.table.attr ⟨pc.ns, "tabstyle"⟩) (d.tgroup.attr ⟨pc.ns, "tgroupstyle"⟩) t.nature := by
  have hplan := doc_plan hn hd
  obtain ⟨st, hst⟩ := accepted_ok ha
  let st1 := CalsP.mapStyle d.tgroup (pc.q "rowsep") CalsP.sepMap "x-cell-border-bottom" (CalsP.mapStyle d.tgroup (pc.q "colsep") CalsP.sepMap "x-cell-border-right" [])
  let st' := Dict.update (copyStyles (some st)) st1
  let nature := CalsP.tgroupNature (CalsP.tableNature pc d.table) (d.tgroup.attr (pc.q "tgroupstyle"))
  have htag : d.table.tag? = some (pc.q "table") := hn.table
  have htagg : d.tgroup.tag? = some (pc.q "tgroup") := hn.tgroup
  have run1 : Runs (fun s => s = PState.init) (AtDocCols pc w (copyStyles (some st)) (CalsP.tableNature pc d.table) []) (CalsP.parseTableElem pc d.table) := by
    rintro s rfl
    have hnew : Table.new ([] : List (Cell Content)) (some st) (CalsP.tableNature pc d.table) =
        .ok ⟨copyStyles (some st), CalsP.tableNature pc d.table, Grid.empty, none, none⟩ := rfl
    refine ⟨{ PState.init with table := some ⟨copyStyles (some st), CalsP.tableNature pc d.table, Grid.empty, none, none⟩ }, ?_,
      ⟨_, rfl, rfl, rfl, ⟨Grid.empty_inv, fun ax vs hv => by cases ax <;> cases hv⟩, rfl, rfl, Nat.zero_le _, by simp, ⟨rfl, rfl⟩, by simp, ?_⟩⟩
    · unfold CalsP.parseTableElem
      simp only [bind_run, lift_run, hst, hnew]
      rfl
    · intro j v hv
      exact absurd hv (by
        have : (Table.baseViews Axis.col (⟨copyStyles (some st), CalsP.tableNature pc d.table, Grid.empty, none, none⟩ : Table Content)) = [] := rfl
        rw [this]; simp)
  have run2 : Runs (AtDocCols pc w (copyStyles (some st)) (CalsP.tableNature pc d.table) [])
      (fun s => ∃ G, DocGoal pc w h st' nature d.cols (DocRowRead pc d.rows) G ∧ AtGap G (EntryRead pc) (docCells d.rows) d.rows.length s)
      (CalsP.loop pc 1 (walkList (CalsP.selected pc) (some d.table) d.table.children)) := by
    rw [holds_walk hn.inTable]
    refine runs_loop_cons ?_ runs_pure
    refine runs_elem htagg (by simp) (Q := AtDocCols pc w st' nature []) ?_ ?_ (runs_unit htagg (by decide) (by decide))
    · rintro ⟨a, b, r, tb⟩ ⟨t0, e1, e2, e3, e4, e5, e6, e7, e8, ⟨e9, e10⟩, e11, e12⟩
      simp only at e1 e2 e3
      subst e1 e2 e3
      have e0 : CalsP.onStart pc (some d.table) d.tgroup = CalsP.parseTgroup pc d.tgroup := by
        simp [CalsP.onStart, htagg, CalsP.Config.q]
      rw [e0]
      exact ⟨_, rfl, _, rfl, rfl, rfl, ⟨e4.grid, e4.views⟩, e5, e6, e7, by simp,
        ⟨congrArg (fun x => Dict.update x st1) e9, congrArg (fun x => CalsP.tgroupNature x _) e10⟩, e11, e12⟩
    · rw [holds_walk hn.inTgroup]
      refine runs_loop_append (Q := AtDocCols pc w st' nature d.cols) ?_ ?_
      · exact runs_docCols d.tgroup htagg d.cols [] (fun i c hi => by
          obtain ⟨h1, h2⟩ := hn.cols c (List.mem_of_getElem? hi)
          refine ⟨h1, h2, ?_⟩
          simp only [List.length_nil, Nat.zero_add]
          exact hc.number i c hi) hc.inside (by simpa using hc.different)
      · intro s hs
        obtain ⟨G, hG, hgap⟩ := docCols_gap (R := EntryRead pc) h (DocRowRead pc d.rows) hs
        have := runs_docBodies (G := G) hG.rowOK (by rw [hG.w, hG.h]; exact hplan) (some d.tgroup) d.bodies [] rfl hn.bodies
        obtain ⟨s', r1, r2⟩ := this s hgap
        exact ⟨s', r1, G, hG, r2⟩
  obtain ⟨s1, r1, q1⟩ := run1 _ rfl
  obtain ⟨s2, r2, q2⟩ := run2 _ q1
  obtain ⟨a2, b2, row2, tb2⟩ := s2
  obtain ⟨G, hG, t', e1, e2, href⟩ := q2
  simp only at e1 e2
  subst e1 e2
  have htiles := hplan.tiles
  have hb : ∀ c d, EntryRead pc c d → d.box = c.box := fun _ _ h => h.box
  have hfull : ∀ p : Coord, 1 ≤ p.x ∧ p.x ≤ w ∧ 1 ≤ p.y ∧ p.y ≤ h → Covered t'.grid.cells p := by
    intro p hp
    refine href.endRow hb (rest := []) (by rw [hG.w, hG.h]; simpa using htiles) (by rw [hG.h, hd.height]) (by simp) p ?_
    rw [hG.w, hd.height]; exact hp
  have hin : ∀ c ∈ t'.grid.cells, c.max.x ≤ w ∧ c.max.y ≤ h := by
    intro d hd
    obtain ⟨c, hc, hr⟩ := href.cells.mem_right hd
    have := htiles.inside c hc
    simp only [Cell.max, hr.box] at this ⊢; exact this
  have hfill : CalsP.fillHoles t' = (.ok (), t') := by
    refine fillHoles_full (w := w) (h := h) href.inv ?_ hin hfull
    intro hnil
    obtain ⟨c, hc, _⟩ := hfull ⟨1, 1⟩ (by have := hd.notEmpty; simp only; omega)
    rw [hnil] at hc; cases hc
  have hcl : (t'.baseViews .col).length = w := by
    have l1 := href.cols
    obtain ⟨d', hd', hp⟩ := hfull ⟨w, 1⟩ (by have := hd.notEmpty; simp only; omega)
    have l2 := (Table.base_describes href.inv .col).enough d' hd'
    simp only [InBox, lastLine, Cell.max] at hp l2
    have := hG.w
    omega
  have hrl : (t'.baseViews .row).length = h := by
    have l1 := href.enough
    have l2 := href.notMore
    have := hG.h
    have := hd.height
    omega
  refine ⟨t', t'.baseViews .row, t'.baseViews .col, ?_, ?_, ?_, hrl, hcl, ?_, ?_, ?_, ?_, ?_⟩
  · unfold eval
    rw [CalsP.parseTable_run parent htag]
    simp only [bind_run, r1, r2, onTable_mk, hfill, get_run, pure_run]
  · unfold eval; rw [Table.views_run .row t' href.inv.grid]
  · unfold eval; rw [Table.views_run .col t' href.inv.grid]
  · have hcells : docCells d.rows = d.entries.map (fun e => DocEntry.cell e.1 e.2) := by
      unfold docCells CalsDoc.entries
      rw [List.map_flatMap]
      congr 1
      funext r
      simp
    have := href.cells
    rw [hcells] at this
    refine (all₂_map_left this).imp ?_
    rintro e c ⟨h1, body, e', k, h2, h3, h4, h5, h6⟩
    cases h2
    refine ⟨h1, by rw [h3]; exact entryContent_toks _, by rw [h3]; exact entryContent_text _, ⟨k, kindOf_iff h5, h6⟩, by rw [h4]; exact entry_shown _⟩
  · refine all₂_of_getElem (by rw [hrl, hd.height]) ?_
    intro i r v hr hv
    have hlt := (List.getElem?_eq_some_iff.mp hr).1
    obtain ⟨v', hv', hok⟩ := href.rowLooks i hlt
    rw [hv] at hv'; cases hv'
    rw [hG.rowOK] at hok
    obtain ⟨r', hr', hok⟩ := hok
    rw [hr] at hr'; cases hr'
    obtain ⟨_, _, _, k, hk⟩ := hplan.good r (List.mem_of_getElem? hr)
    obtain ⟨st2, hl⟩ := rowLooks_ok (pc := pc) (row := r.2.node) hk
    rw [hl] at hok
    have hp := Except.ok.inj hok
    have h1 := congrArg Prod.fst hp
    have h2 := congrArg Prod.snd hp
    simp only at h1 h2
    rw [← h1, ← h2]
    exact ⟨⟨k, kindOf_iff hk, rfl⟩, row_shown hl⟩
  · intro c hcm
    have hnum := hc.inside c hcm
    obtain ⟨vs, v', hvs, hv', hok⟩ := href.colLooks (c.num - 1) (by have := hG.known c hcm; omega)
    have e1 : t'.baseViews .col = vs := by
      show (t'.cols).getD _ = _
      rw [hvs]; rfl
    rw [hG.colOK] at hok
    refine ⟨v', by rw [e1]; exact hv', ?_⟩
    rcases hok with ⟨c', hc', hnum', hok⟩ | ⟨hno, _⟩
    · have : c' = c := by
        refine pairwise_unique hc.different hc' hcm (fun a b h e => h e.symm) ?_
        omega
      subst this
      rw [hok]
      exact col_shown _
    · exact absurd (by omega) (hno c hcm)
  · rw [href.same.1, hG.styles]
    exact table_shown hst
  · rw [href.same.2, hG.nature]
    exact nature_shown

/-- a way to check that nodes hold no CALS element -/
theorem noCals_of {ns : Option String} {nodes : List Node} (h : ∀ tk ∈ toksList nodes, (match tk with
    | .opening t _ => decide (t.name ∉ ["table", "tgroup", "colspec", "thead", "tfoot", "tbody", "row", "entry"])
    | _ => true) = true) : NoCals ns nodes := by
  intro t a ht _
  have := h _ ht
  simpa using this

def qn (s : String) : QName := ⟨none, s⟩
def docE1 : Node := .elem (qn "entry") [(qn "namest", "c1"), (qn "nameend", "c2"), (qn "align", "char")] (some "a") [] none
def docE2 : Node := .elem (qn "entry") [(qn "valign", "middle"), (qn "colsep", "0")] (some "b") [.elem (qn "b") [] (some "bold") [] none] none
def docE3 : Node := .elem (qn "entry") [(qn "morerows", "1"), (qn "bgcolor", "red")] none [] none
def docE4 : Node := .elem (qn "entry") [(qn "namest", "col02"), (qn "nameend", "col03")] (some "d") [] none
def docE5 : Node := .elem (qn "entry") [] (some "e") [] none
def docE6 : Node := .elem (qn "entry") [] (some "f") [] none
def docR1 : Node := .elem (qn "row") [(qn "rowsep", "1")] none [docE1, .comment "note" none, docE2] none
def docR2 : Node := .elem (qn "row") [(qn "valign", "bottom"), (qn "rowstyle", "x")] none [docE3, docE4] none
def docR3 : Node := .elem (qn "row") [] none [docE5, docE6] none
def docHead : Node := .elem (qn "thead") [(qn "valign", "top")] none [docR1] none
def docBody : Node := .elem (qn "tbody") [(qn "valign", "top")] none [.pi "p" "q" none, docR2, docR3] none
def docC1 : Node := .elem (qn "colspec") [(qn "colnum", "3"), (qn "colwidth", "4cm")] none [] none
def docC2 : Node := .elem (qn "colspec") [(qn "align", "right")] none [] none
def docTg : Node := .elem (qn "tgroup") [(qn "cols", "3"), (qn "colsep", "1"), (qn "tgroupstyle", "z")] none [docC1, docC2, docHead, docBody] none
def docTable : Node := .elem (qn "table") [(qn "frame", "topbot"), (qn "tabstyle", "x y"), (qn "width", "10cm")] none
  [.elem (qn "title") [] (some "Title") [] none, docTg] none

/-- a document with a title, a group whose rows are aligned, spans, comments, a column told by its number and a column told by its rank -/
def docDemo : CalsDoc :=
  ⟨docTable, docTg, [⟨docC1, 3⟩, ⟨docC2, 2⟩],
   [⟨docHead, [⟨docR1, [⟨docE1, ⟨⟨1, 1⟩, ⟨2, 1⟩⟩⟩, ⟨docE2, ⟨⟨3, 1⟩, ⟨3, 1⟩⟩⟩]⟩]⟩,
    ⟨docBody, [⟨docR2, [⟨docE3, ⟨⟨1, 2⟩, ⟨1, 3⟩⟩⟩, ⟨docE4, ⟨⟨2, 2⟩, ⟨3, 2⟩⟩⟩]⟩,
               ⟨docR3, [⟨docE5, ⟨⟨2, 3⟩, ⟨2, 3⟩⟩⟩, ⟨docE6, ⟨⟨3, 3⟩, ⟨3, 3⟩⟩⟩]⟩]⟩]⟩

theorem docDemo_nested : docDemo.Nested none := by
  have no : ∀ n : Node, (∀ tk ∈ toksList [n], (match tk with
    | .opening t _ => decide (t.name ∉ ["table", "tgroup", "colspec", "thead", "tfoot", "tbody", "row", "entry"])
    | _ => true) = true) → NoCals none [n] := fun n h => noCals_of h
  refine ⟨rfl, ?_, rfl, ?_, ?_, ?_, ?_, ?_⟩
  · exact .skip _ _ _ (no _ (by decide +kernel)) (.take _ _ _ .nil)
  · exact .take _ _ _ (.take _ _ _ (.take _ _ _ (.take _ _ _ .nil)))
  · intro c hc
    simp only [docDemo, List.mem_cons, List.not_mem_nil, or_false] at hc
    rcases hc with rfl | rfl <;> exact ⟨rfl, noCals_of (by decide +kernel)⟩
  · intro b hb
    simp only [docDemo, List.mem_cons, List.not_mem_nil, or_false] at hb
    rcases hb with rfl | rfl
    · exact ⟨⟨"thead", by simp, rfl⟩, .take _ _ _ .nil⟩
    · exact ⟨⟨"tbody", by simp, rfl⟩, .skip _ _ _ (no _ (by decide +kernel)) (.take _ _ _ (.take _ _ _ .nil))⟩
  · intro r hr
    simp only [docDemo, CalsDoc.rows, List.flatMap_cons, List.flatMap_nil, List.map_cons, List.map_nil, List.cons_append, List.nil_append, List.append_nil,
      List.mem_cons, List.not_mem_nil, or_false] at hr
    rcases hr with rfl | rfl | rfl
    · exact ⟨rfl, .take _ _ _ (.skip _ _ _ (no _ (by decide +kernel)) (.take _ _ _ .nil))⟩
    · exact ⟨rfl, .take _ _ _ (.take _ _ _ .nil)⟩
    · exact ⟨rfl, .take _ _ _ (.take _ _ _ .nil)⟩
  · intro e he
    simp only [docDemo, CalsDoc.rows, CalsDoc.entries, List.flatMap_cons, List.flatMap_nil, List.map_cons, List.map_nil, List.cons_append, List.nil_append,
      List.append_nil, List.mem_cons, List.not_mem_nil, or_false] at he
    rcases he with rfl | rfl | rfl | rfl | rfl | rfl <;> exact ⟨rfl, noCals_of (by decide +kernel)⟩

theorem docDemo_drawn : docDemo.Drawn none 3 3 := by
  have he : docDemo.entries.map (·.2.box) = [⟨⟨1, 1⟩, ⟨2, 1⟩⟩, ⟨⟨3, 1⟩, ⟨3, 1⟩⟩, ⟨⟨1, 2⟩, ⟨1, 3⟩⟩, ⟨⟨2, 2⟩, ⟨3, 2⟩⟩, ⟨⟨2, 3⟩, ⟨2, 3⟩⟩, ⟨⟨3, 3⟩, ⟨3, 3⟩⟩] := rfl
  refine ⟨rfl, by omega, ?_, by decide +kernel, ?_, by decide +kernel, ?_, ?_⟩
  · intro i r hr e he
    have hi : i < 3 := (List.getElem?_eq_some_iff.mp hr).1
    have : i = 0 ∨ i = 1 ∨ i = 2 := by omega
    rcases this with rfl | rfl | rfl <;> cases hr <;>
    · simp only [List.mem_cons, List.not_mem_nil, or_false] at he
      rcases he with rfl | rfl <;> rfl
  · intro e he
    simp only [docDemo, CalsDoc.rows, CalsDoc.entries, List.flatMap_cons, List.flatMap_nil, List.map_cons, List.map_nil, List.cons_append, List.nil_append,
      List.append_nil, List.mem_cons, List.not_mem_nil, or_false] at he
    rcases he with rfl | rfl | rfl | rfl | rfl | rfl
    · exact ⟨.inr ⟨"c1", "c2", 1, 2, rfl, rfl, ⟨['c'], ['1'], [], by decide +kernel⟩, ⟨['c'], ['2'], [], by decide +kernel⟩, rfl⟩, .inl ⟨rfl, rfl⟩⟩
    · exact ⟨.inl ⟨rfl, rfl, rfl⟩, .inl ⟨rfl, rfl⟩⟩
    · exact ⟨.inl ⟨rfl, rfl, rfl⟩, .inr ⟨"1", 1, rfl, isNumber_ascii (by decide) (by decide), rfl⟩⟩
    · exact ⟨.inr ⟨"col02", "col03", 2, 3, rfl, rfl, ⟨['c', 'o', 'l'], ['0', '2'], [], by decide +kernel⟩, ⟨['c', 'o', 'l'], ['0', '3'], [], by decide +kernel⟩, rfl⟩,
        .inl ⟨rfl, rfl⟩⟩
    · exact ⟨.inl ⟨rfl, rfl, rfl⟩, .inl ⟨rfl, rfl⟩⟩
    · exact ⟨.inl ⟨rfl, rfl, rfl⟩, .inl ⟨rfl, rfl⟩⟩
  · have : (docDemo.entries.map (·.2.box)).Pairwise (fun a b => ¬ Overlap a b) := by
      rw [he]
      simp only [List.pairwise_cons, List.mem_cons, List.not_mem_nil, or_false]
      simp only [Overlap, InBox]
      refine ⟨?_, ?_, ?_, ?_, ?_, ?_, List.Pairwise.nil⟩ <;>
      · rintro a h ⟨p, hp⟩
        rcases h with rfl | rfl | rfl | rfl | rfl <;> simp only at hp <;> omega
    rw [List.pairwise_map] at this
    exact this
  · intro p h1 h2 h3 h4
    have : ∃ b ∈ docDemo.entries.map (·.2.box), InBox p b := by
      rw [he]
      simp only [List.mem_cons, List.not_mem_nil, or_false, exists_eq_or_imp, exists_eq_left, InBox]
      omega
    obtain ⟨b, hb, hp⟩ := this
    obtain ⟨e, he', rfl⟩ := List.mem_map.mp hb
    exact ⟨e, he', hp⟩

theorem docDemo_columns : docDemo.Columns none 3 := by
  refine ⟨?_, by decide +kernel, by decide +kernel⟩
  intro i c hi
  have hlt : i < 2 := (List.getElem?_eq_some_iff.mp hi).1
  have : i = 0 ∨ i = 1 := by omega
  rcases this with rfl | rfl <;> cases hi
  · exact .inr ⟨"3", rfl, isNumber_ascii (by decide) (by decide)⟩
  · exact .inl ⟨.inl rfl, rfl⟩

/-- the hypotheses of `C73_reading` hold of a document with groups, spans, alignments and columns in disorder -/
example : ∃ pc : CalsP.Config, docDemo.Nested pc.ns ∧ docDemo.Drawn pc.ns 3 3 ∧ docDemo.Columns pc.ns 3 ∧ Accepted pc docDemo.table := by
  refine ⟨⟨none, ['m', 'm'], id⟩, docDemo_nested, docDemo_drawn, docDemo_columns, ?_, ?_⟩
  · intro f hf _
    cases hf; decide
  · intro s hs _
    cases hs
    have : (Units.rewriteWidth id ['m', 'm'] "10cm".toList).isOk = true := by decide +kernel
    cases h : Units.rewriteWidth id ['m', 'm'] "10cm".toList with
    | ok w => exact ⟨w, rfl⟩
    | error e => rw [h] at this; cases this

end Benker
