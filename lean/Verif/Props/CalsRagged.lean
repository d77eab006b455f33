import Verif.Lemmas.CalsRagged
import Verif.Lemmas.CalsPlaces

/-! C109: what the CALS parser reads in a CALS document whose rows have not all the same length. -/

namespace Benker
open PyM Cals CalsSpec

variable {pc : CalsP.Config}

theorem entriesOf_rows (d : CalsDoc) : entriesOf d.rows = d.entries := rfl

theorem ragged_plan {w h : Nat} {d : CalsDoc} (hn : d.Nested pc.ns) (hd : d.Placed pc.ns) (hw : d.Width w) (hh : d.Height h) {G : Goal} (hGw : G.w = w)
    (hGh : G.h = h) (hG : G.rowOK = DocRowRead pc d.rows) : RaggedPlan pc G d.rows := by
  have hrows : (d.rows.length : Int) ≤ h := hh.2 _ (by simp)
  refine ⟨?_, hd.first, ?_, hG, by omega⟩
  · intro r hr
    obtain ⟨h1, h2⟩ := hn.rows r hr
    refine ⟨h1, h2, ?_, ?_⟩
    · intro e he
      have hm : (r.1, e) ∈ d.entries := List.mem_flatMap.mpr ⟨r, hr, List.mem_map_of_mem he⟩
      obtain ⟨h3, h4⟩ := hn.entries _ hm
      obtain ⟨h5, h6⟩ := hd.spans _ hm
      exact ⟨h3, h4, h5, h6⟩
    · obtain ⟨b, hb, hr⟩ := List.mem_flatMap.mp hr
      obtain ⟨r', _, rfl⟩ := List.mem_map.mp hr
      obtain ⟨⟨name, hname, htag⟩, _⟩ := hn.bodies b hb
      simp only
      unfold CalsP.localname
      rw [htag]
      simp only [List.mem_cons, List.not_mem_nil, or_false] at hname
      rcases hname with rfl | rfl | rfl <;> exact ⟨_, rfl⟩
  · intro pre r post hr a e b he
    have hsplit : d.entries = (entriesOf pre ++ a.map (fun e => (r.1, e))) ++ (r.1, e) :: (b.map (fun e => (r.1, e)) ++ entriesOf post) := by
      rw [← entriesOf_rows, hr]
      unfold entriesOf
      rw [List.flatMap_append, List.flatMap_cons, he]
      simp
    have hm : (r.1, e) ∈ d.entries := by rw [hsplit]; simp
    have hv := hd.valid _ hm
    have hs : e.box.min.y = (pre.length : Int) + 1 := hd.starts pre.length r (by rw [hr]; simp) e (by rw [he]; simp)
    have hx : e.box.max.x ≤ w := hw.2 _ (List.mem_append_left _ (List.mem_map.mpr ⟨_, hm, rfl⟩))
    have hy : e.box.max.y ≤ h := hh.2 _ (List.mem_append_left _ (List.mem_map.mpr ⟨_, hm, rfl⟩))
    refine ⟨?_, by rw [hs]; simp, by rw [hGw, hGh]; exact ⟨hx, hy⟩, ?_, ?_⟩
    · simp only at hv
      unfold Box.Valid; omega
    · intro a' ha'
      have := hd.disjoint
      rw [hsplit, List.pairwise_append] at this
      exact this.2.2 a' ha' (r.1, e) List.mem_cons_self
    · intro x h1 h2
      exact hd.leftmost _ _ _ hsplit x h1 h2

theorem max_num (cols : List DocCol) : ∃ w, (∀ c ∈ cols, c.num ≤ w) ∧ (w = 0 ∨ ∃ c ∈ cols, c.num = w) := by
  induction cols with
  | nil => exact ⟨0, by simp, .inl rfl⟩
  | cons c l ih =>
    obtain ⟨w, h1, h2⟩ := ih
    by_cases hc : w ≤ c.num
    · refine ⟨c.num, ?_, .inr ⟨c, by simp, rfl⟩⟩
      intro c' hc'
      rcases List.mem_cons.mp hc' with h | h
      · subst h; exact Nat.le_refl _
      · have := h1 c' h; omega
    · refine ⟨w, ?_, ?_⟩
      · intro c' hc'
        rcases List.mem_cons.mp hc' with h | h
        · subst h; omega
        · exact h1 c' h
      · rcases h2 with h2 | ⟨c', hc', h2⟩
        · exact .inl h2
        · exact .inr ⟨c', by simp [hc'], h2⟩

theorem emptyPlace {d : CalsDoc} {G : Goal} (hp : RaggedPlan pc G d.rows) {k : Nat} (hk : G.known = k) (hk1 : ∀ c ∈ d.cols, c.num ≤ k) (hk2 : k = 0 ∨ ∃ c ∈ d.cols, c.num = k)
    {c : Cell Content} (hv : c.box.Valid) (h1 : AddedCell c)
    (h2 : AddedInRow entryBox G (entriesOf d.rows) d.rows.length c ∨ c.nature = none ∧ ¬ (c.box.min.y ≤ d.rows.length ∧ Reach entryBox G (entriesOf d.rows) c.box.min)) : d.EmptyPlace c := by
  unfold Box.Valid at hv
  have hreach : Reach entryBox G (entriesOf d.rows) c.box.min ↔ d.Known c.box.min := by
    unfold Reach CalsDoc.Known
    rw [hk]
    constructor
    · rintro (h | h)
      · rcases hk2 with h0 | ⟨c', hc', h0⟩
        · omega
        · exact .inl ⟨c', hc', by omega⟩
      · exact .inr h
    · rintro (⟨c', hc', h⟩ | h)
      · have := hk1 c' hc'
        exact .inl (by omega)
      · exact .inr h
  refine ⟨h1.1, h1.2.1, h1.2.2, ?_⟩
  rcases h2 with ⟨h3, ⟨st, h4⟩, h5⟩ | ⟨h3, h4⟩
  · rw [hp.looks] at h4
    obtain ⟨r, hr, hl⟩ := h4
    obtain ⟨_, _, _, k', hk'⟩ := hp.good r (List.mem_of_getElem? hr)
    obtain ⟨st2, hl2⟩ := rowLooks_ok (pc := pc) (row := r.2.node) hk'
    rw [hl2] at hl
    have hn := congrArg Prod.snd (Except.ok.inj hl)
    simp only at hn
    exact .inl ⟨_, r, k', by omega, hr, kindOf_iff hk', hn.symm, hreach.mp h5⟩
  · refine .inr ⟨h3, ?_⟩
    by_cases h5 : c.box.min.y ≤ d.rows.length
    · exact .inr fun h => h4 ⟨h5, hreach.mpr h⟩
    · exact .inl (by omega)

/-- **C109**: a CALS table is read as it is drawn even when its rows have not all the same length.  Each entry is at the first place of its row which the entries
before it leave; as long as no entry is drawn over another one the table is read: there is a cell for each entry, at this place, with its content, its kind and
its looks; the other places of the rectangle, which goes to the last column of an entry or of a `colspec` and to the last row, are empty cells, which have the kind of their row if their column
is known when the row ends.
The looks of the rows, of the columns and of the table are those which their attributes tell. -/
theorem C109_unequal_rows (d : CalsDoc) (w h : Nat) (hn : d.Nested pc.ns) (hd : d.Placed pc.ns) (hc : d.Columns pc.ns w) (hw : d.Width w) (hh : d.Height h)
    (ha : Accepted pc d.table) (parent : Option Node) (s : PState) :
    ∃ (t : Table Content) (rows cols : List (View Content)), eval (CalsP.parseTable pc parent d.table) s = .ok (some t) ∧
      eval (Table.views .row) t = .ok rows ∧ eval (Table.views .col) t = .ok cols ∧ rows.length = h ∧ cols.length = w ∧
      (∀ p : Coord, Covered t.cells p ↔ 1 ≤ p.x ∧ p.x ≤ w ∧ 1 ≤ p.y ∧ p.y ≤ h) ∧
      (∀ e ∈ d.entries, ∃ c ∈ t.cells, c.box = e.2.box ∧ contentToks c.content = insideToks e.2.node ∧
        (Content.text? c.content).toList = charsOf (insideToks e.2.node) ∧ (∃ k, KindOf e.1 k ∧ c.nature = some k) ∧ EntryShown pc.ns e.2.node c.styles) ∧
      (∀ c ∈ t.cells, (∃ e ∈ d.entries, c.box = e.2.box) ∨ d.EmptyPlace c) ∧ DisjointCells t.cells ∧
      (∀ (i : Nat) (r : Node × DocRow), d.rows[i]? = some r →
        ∃ v, rows[i]? = some v ∧ (∃ k, KindOf r.1 k ∧ v.nature = some k) ∧ RowShown pc.ns r.1 r.2.node v.styles) ∧
      (∀ c ∈ d.cols, ∃ v, cols[c.num - 1]? = some v ∧ ColShown pc.ns c.node v.styles) ∧
      TableShown pc.ns (Units.rewriteWidth pc.fl pc.widthUnit) d.table d.tgroup t.styles ∧
      TableNature (d.table.attr ⟨pc.ns, "tabstyle"⟩) (d.tgroup.attr ⟨pc.ns, "tgroupstyle"⟩) t.nature := by
  obtain ⟨k, hk1, hk2⟩ := max_num d.cols
  have hkw : k ≤ w := by
    rcases hk2 with rfl | ⟨c, hcm, rfl⟩
    · exact Nat.zero_le _
    · exact (hc.inside c hcm).2
  obtain ⟨st, hst⟩ := accepted_ok ha
  let st1 := CalsP.mapStyle d.tgroup (pc.q "rowsep") CalsP.sepMap "x-cell-border-bottom" (CalsP.mapStyle d.tgroup (pc.q "colsep") CalsP.sepMap "x-cell-border-right" [])
  let st' := Dict.update (copyStyles (some st)) st1
  let nature := CalsP.tgroupNature (CalsP.tableNature pc d.table) (d.tgroup.attr (pc.q "tgroupstyle"))
  let G : Goal := ⟨w, h, k, DocRowRead pc d.rows, DocColRead pc d.cols, st', nature⟩
  have hplan : RaggedPlan pc G d.rows := ragged_plan hn hd hw hh rfl rfl rfl
  have htag : d.table.tag? = some (pc.q "table") := hn.table
  have htagg : d.tgroup.tag? = some (pc.q "tgroup") := hn.tgroup
  have run1 : Runs (fun s => s = PState.init) (AtDocCols pc k (copyStyles (some st)) (CalsP.tableNature pc d.table) []) (CalsP.parseTableElem pc d.table) := by
    rintro s rfl
    have hnew : Table.new ([] : List (Cell Content)) (some st) (CalsP.tableNature pc d.table) =
        .ok ⟨copyStyles (some st), CalsP.tableNature pc d.table, Grid.empty, none, none⟩ := rfl
    refine ⟨{ PState.init with table := some ⟨copyStyles (some st), CalsP.tableNature pc d.table, Grid.empty, none, none⟩ }, ?_,
      ⟨_, rfl, rfl, rfl, ⟨Grid.empty_inv, fun ax vs hv => by cases ax <;> cases hv⟩, rfl, rfl, Nat.zero_le _, by simp, ⟨rfl, rfl⟩, by simp, ?_⟩⟩
    · unfold CalsP.parseTableElem
      simp only [bind_run, lift_run, hst, hnew]
      rfl
    · intro j v hv
      exact absurd hv (by
        have : (Table.baseViews Axis.col (⟨copyStyles (some st), CalsP.tableNature pc d.table, Grid.empty, none, none⟩ : Table Content)) = [] := rfl
        rw [this]; simp)
  have run2 : Runs (AtDocCols pc k (copyStyles (some st)) (CalsP.tableNature pc d.table) [])
      (GapR pc G (entriesOf d.rows) d.rows.length)
      (CalsP.loop pc 1 (walkList (CalsP.selected pc) (some d.table) d.table.children)) := by
    rw [holds_walk hn.inTable]
    refine runs_loop_cons ?_ runs_pure
    refine runs_elem htagg (by simp) (Q := AtDocCols pc k st' nature []) ?_ ?_ (runs_unit htagg (by decide) (by decide))
    · rintro ⟨a, b, r, tb⟩ ⟨t0, e1, e2, e3, e4, e5, e6, e7, e8, ⟨e9, e10⟩, e11, e12⟩
      simp only at e1 e2 e3
      subst e1 e2 e3
      have e0 : CalsP.onStart pc (some d.table) d.tgroup = CalsP.parseTgroup pc d.tgroup := by
        simp [CalsP.onStart, htagg, CalsP.Config.q]
      rw [e0]
      exact ⟨_, rfl, _, rfl, rfl, rfl, ⟨e4.grid, e4.views⟩, e5, e6, e7, by simp,
        ⟨congrArg (fun x => Dict.update x st1) e9, congrArg (fun x => CalsP.tgroupNature x _) e10⟩, e11, e12⟩
    · rw [holds_walk hn.inTgroup]
      refine runs_loop_append (Q := AtDocCols pc k st' nature d.cols) ?_ ?_
      · exact runs_docCols d.tgroup htagg d.cols [] (fun i c hi => by
          obtain ⟨h1, h2⟩ := hn.cols c (List.mem_of_getElem? hi)
          refine ⟨h1, h2, ?_⟩
          simp only [List.length_nil, Nat.zero_add]
          exact hc.number i c hi) (fun c hcm => ⟨(hc.inside c hcm).1, hk1 c hcm⟩) (by simpa using hc.different)
      · intro s hs
        have hgap := docCols_ragged (h := h) hkw hk2 (DocRowRead pc d.rows) hs
        have := runs_raggedBodies (G := G) hplan (some d.tgroup) d.bodies [] rfl hn.bodies
        exact this s hgap
  obtain ⟨s1, r1, q1⟩ := run1 _ rfl
  obtain ⟨s2, r2, q2⟩ := run2 _ q1
  obtain ⟨a2, b2, row2, tb2⟩ := s2
  obtain ⟨t0, e1, e2, href⟩ := q2
  simp only at e1 e2
  subst e1 e2
  have hne : entriesOf d.rows ≠ [] := by
    obtain ⟨r0, h0, he⟩ := hd.first
    obtain ⟨e, he⟩ := List.exists_mem_of_ne_nil _ he
    intro hnil
    have : (r0.1, e) ∈ entriesOf d.rows := List.mem_flatMap.mpr ⟨r0, List.mem_of_getElem? h0, List.mem_map_of_mem he⟩
    rw [hnil] at this; cases this
  have hlen : 1 ≤ d.rows.length := by
    obtain ⟨r0, h0, _⟩ := hd.first
    have := (List.getElem?_eq_some_iff.mp h0).1
    omega
  have hrh : (d.rows.length : Int) ≤ h := hh.2 _ (by simp)
  obtain ⟨t', hfill, hr, hcov⟩ := Rag.fillHoles entryIs_box href (h := h) hne rfl (by
      rcases List.mem_append.mp hw.1 with hm | hm
      · obtain ⟨e, he, hx⟩ := List.mem_map.mp hm
        exact .inl ⟨e, he, hx⟩
      · obtain ⟨c, hcm, hx⟩ := List.mem_map.mp hm
        have := hk1 c hcm
        exact .inr (by show k = w; omega)) (by
      rcases List.mem_append.mp hh.1 with hm | hm
      · obtain ⟨e, he, hx⟩ := List.mem_map.mp hm
        exact .inl ⟨e, he, hx⟩
      · simp only [List.mem_singleton] at hm
        exact .inr (by omega)) ⟨hlen, by omega⟩ (by
      intro e he
      exact ⟨hw.2 _ (List.mem_append_left _ (List.mem_map.mpr ⟨_, he, rfl⟩)), hh.2 _ (List.mem_append_left _ (List.mem_map.mpr ⟨_, he, rfl⟩))⟩)
  have hw1 : 1 ≤ w := by
    obtain ⟨e, he⟩ := List.exists_mem_of_ne_nil _ hne
    have := hd.valid e he
    have := hw.2 _ (List.mem_append_left _ (List.mem_map.mpr ⟨_, he, rfl⟩))
    omega
  have hlines : ∀ ax, (t'.baseViews ax).length = (match ax with | .row => h | .col => w) := by
    intro ax
    obtain ⟨c, hcc, hp⟩ := (hcov ⟨w, h⟩).mpr (by show 1 ≤ (w : Int) ∧ (w : Int) ≤ w ∧ 1 ≤ (h : Int) ∧ (h : Int) ≤ h; omega)
    have l1 := hr.lines ax
    have l2 := (Table.base_describes hr.inv ax).enough c hcc
    simp only [InBox] at hp
    cases ax <;> simp only [lastLine, Cell.max, Goal.bound] at l1 l2 ⊢ <;> (have e1 : G.h = h := rfl; have e2 : G.w = w := rfl; omega)
  refine ⟨t', t'.baseViews .row, t'.baseViews .col, ?_, ?_, ?_, hlines .row, hlines .col, hcov, ?_, ?_, ?_, ?_, ?_, ?_, ?_⟩
  · unfold eval
    rw [CalsP.parseTable_run parent htag]
    simp only [bind_run, r1, r2, onTable_mk, hfill, get_run, pure_run]
  · unfold eval; rw [Table.views_run .row t' hr.inv.grid]
  · unfold eval; rw [Table.views_run .col t' hr.inv.grid]
  · intro e he
    obtain ⟨c, hcc, h1, body, e', k', h2, h3, h4, h5, h6⟩ := hr.read e he
    cases h2
    exact ⟨c, hcc, h1, by rw [h3]; exact entryContent_toks _, by rw [h3]; exact entryContent_text _, ⟨k', kindOf_iff h5, h6⟩, by rw [h4]; exact entry_shown _⟩
  · intro c hcc
    rcases hr.only c hcc with ⟨e, he, h1⟩ | ⟨h1, h2⟩
    · exact .inl ⟨e, he, h1.box⟩
    · exact .inr (emptyPlace hplan rfl hk1 (by simpa using hk2) (hr.inv.grid.valid c hcc) h1 h2)
  · refine (crosswise_inv _ hr.inv.grid).imp_of_mem ?_
    intro a b hac hbc hcross hov
    obtain ⟨p, h1, h2⟩ := hov
    have hone : ∀ c : Cell Content, AddedCell c → InBox p c.box → p = c.min := by
      rintro c ⟨_, _, h3⟩ h4
      simp only [InBox, h3] at h4
      simp only [Cell.min]
      cases p
      cases hm : c.box.min
      rw [hm] at h4
      simp only [Coord.mk.injEq] at h4 ⊢
      omega
    rcases hr.only a hac with ⟨ea, hea, ra⟩ | ⟨ra, _⟩
    · rcases hr.only b hbc with ⟨eb, heb, rb⟩ | ⟨rb, _⟩
      · have hab : ea = eb := by
          refine pairwise_unique hd.disjoint hea heb (fun x y h1 ⟨q, h2, h3⟩ => h1 ⟨q, h3, h2⟩) ?_
          intro hn
          have e1 : a.box = ea.2.box := ra.box
          have e2 : b.box = eb.2.box := rb.box
          exact hn ⟨p, by rw [← e1]; exact h1, by rw [← e2]; exact h2⟩
        subst hab
        have e1 : a.box = ea.2.box := ra.box
        have e2 : b.box = ea.2.box := rb.box
        have hv := hr.inv.grid.valid a hac
        refine hcross.1 ?_
        rw [e2, ← e1]
        unfold Box.Valid at hv
        simp only [InBox, Cell.min]
        omega
      · exact hcross.2.2.1 (by rw [← hone b rb h2]; exact h1)
    · exact hcross.1 (by rw [← hone a ra h1]; exact h2)
  · intro i r hir
    have hlt := (List.getElem?_eq_some_iff.mp hir).1
    obtain ⟨vs, v, hvs, hv, hok⟩ := hr.rowLooks i hlt
    have e1 : t'.baseViews .row = vs := base_of_some hvs
    obtain ⟨r', hr', hok⟩ := hok
    rw [hir] at hr'; cases hr'
    obtain ⟨_, _, _, k', hk'⟩ := hplan.good r (List.mem_of_getElem? hir)
    obtain ⟨st2, hl⟩ := rowLooks_ok (pc := pc) (row := r.2.node) hk'
    rw [hl] at hok
    have hp := Except.ok.inj hok
    have h1 := congrArg Prod.fst hp
    have h2 := congrArg Prod.snd hp
    simp only at h1 h2
    refine ⟨v, by rw [e1]; exact hv, ?_⟩
    rw [← h1, ← h2]
    exact ⟨⟨k', kindOf_iff hk', rfl⟩, row_shown hl⟩
  · intro c hcm
    have hnum := hc.inside c hcm
    have := hk1 c hcm
    obtain ⟨vs, v', hvs, hv', hok⟩ := hr.colLooks (c.num - 1) (by show c.num - 1 < k; omega)
    have e1 : t'.baseViews .col = vs := base_of_some hvs
    refine ⟨v', by rw [e1]; exact hv', ?_⟩
    rcases hok with ⟨c', hc', hnum', hok⟩ | ⟨hno, _⟩
    · have : c' = c := by
        refine pairwise_unique hc.different hc' hcm (fun a b h e => h e.symm) ?_
        omega
      subst this
      rw [hok]
      exact col_shown _
    · exact absurd (by omega) (hno c hcm)
  · rw [hr.same.1]
    exact table_shown hst
  · rw [hr.same.2]
    exact nature_shown

theorem same_row {d d' : CalsDoc} (h : d.SameElements d') {r' : Node × DocRow} (hr : r' ∈ d'.rows) :
    ∃ r ∈ d.rows, r.1 = r'.1 ∧ r.2.node = r'.2.node ∧ r.2.entries.map (·.node) = r'.2.entries.map (·.node) := by
  obtain ⟨b', hb', hr⟩ := List.mem_flatMap.mp hr
  obtain ⟨q', hq', rfl⟩ := List.mem_map.mp hr
  have : (b'.node, b'.rows.map (fun r => (r.node, r.entries.map (·.node)))) ∈
      d'.bodies.map (fun b => (b.node, b.rows.map (fun r => (r.node, r.entries.map (·.node))))) :=
    List.mem_map_of_mem (f := fun b : DocBody => (b.node, b.rows.map (fun r => (r.node, r.entries.map (·.node))))) hb'
  rw [h.2.2.2] at this
  obtain ⟨b, hb, hbe⟩ := List.mem_map.mp this
  simp only [Prod.mk.injEq] at hbe
  have h2 : (q'.node, q'.entries.map (·.node)) ∈ b'.rows.map (fun r => (r.node, r.entries.map (·.node))) :=
    List.mem_map_of_mem (f := fun r : DocRow => (r.node, r.entries.map (·.node))) hq'
  rw [← hbe.2] at h2
  obtain ⟨q, hq, hqe⟩ := List.mem_map.mp h2
  simp only [Prod.mk.injEq] at hqe
  exact ⟨(b.node, q), List.mem_flatMap.mpr ⟨b, hb, List.mem_map_of_mem hq⟩, hbe.1, hqe.1, hqe.2⟩

theorem same_entry {d d' : CalsDoc} (h : d.SameElements d') {e' : Node × DocEntry} (he : e' ∈ d'.entries) : ∃ e ∈ d.entries, e.1 = e'.1 ∧ e.2.node = e'.2.node := by
  obtain ⟨r', hr', he⟩ := List.mem_flatMap.mp he
  obtain ⟨a', ha', rfl⟩ := List.mem_map.mp he
  obtain ⟨r, hr, h1, _, h3⟩ := same_row h hr'
  obtain ⟨a, ha, hae⟩ := mem_nodes h3.symm ha'
  exact ⟨(r.1, a), List.mem_flatMap.mpr ⟨r, hr, List.mem_map_of_mem ha⟩, h1, hae⟩

theorem same_nested {ns : Option String} {d d' : CalsDoc} (h : d.SameElements d') (hn : d.Nested ns) : d'.Nested ns := by
  obtain ⟨h1, h2, h3, h4⟩ := h
  have hb : d'.bodies.map (·.node) = d.bodies.map (·.node) := by
    have := congrArg (List.map Prod.fst) h4
    simpa [List.map_map, Function.comp_def] using this
  refine ⟨by rw [h1]; exact hn.table, by rw [h1, h2]; exact hn.inTable, by rw [h2]; exact hn.tgroup, by rw [h2, h3, hb]; exact hn.inTgroup,
    by rw [h3]; exact hn.cols, ?_, ?_, ?_⟩
  · intro b' hb'
    have : (b'.node, b'.rows.map (fun r => (r.node, r.entries.map (·.node)))) ∈
        d'.bodies.map (fun b => (b.node, b.rows.map (fun r => (r.node, r.entries.map (·.node))))) :=
      List.mem_map_of_mem (f := fun b : DocBody => (b.node, b.rows.map (fun r => (r.node, r.entries.map (·.node))))) hb'
    rw [h4] at this
    obtain ⟨b, hb, hbe⟩ := List.mem_map.mp this
    simp only [Prod.mk.injEq] at hbe
    have e : b'.rows.map (·.node) = b.rows.map (·.node) := by
      have := congrArg (List.map Prod.fst) hbe.2.symm
      simpa [List.map_map, Function.comp_def] using this
    have := hn.bodies b hb
    rw [e, ← hbe.1]
    exact this
  · intro r' hr'
    obtain ⟨r, hr, e1, e2, e3⟩ := same_row ⟨h1, h2, h3, h4⟩ hr'
    rw [← e2, ← e3]
    exact hn.rows r hr
  · intro e' he'
    obtain ⟨e, he, _, e2⟩ := same_entry ⟨h1, h2, h3, h4⟩ he'
    rw [← e2]
    exact hn.entries e he

theorem isMax_of {l : List Int} (hne : l ≠ []) (h : ∀ m ∈ l, 0 ≤ m) : ∃ n, IsMax n l := by
  induction l with
  | nil => exact absurd rfl hne
  | cons a l ih =>
    have ha := h a List.mem_cons_self
    by_cases hl : l = []
    · subst hl
      exact ⟨a.toNat, by simp; omega, by intro m hm; simp only [List.mem_singleton] at hm; omega⟩
    · obtain ⟨n, h1, h2⟩ := ih hl (fun m hm => h m (List.mem_cons_of_mem _ hm))
      by_cases hc : a ≤ n
      · refine ⟨n, List.mem_cons_of_mem _ h1, ?_⟩
        intro m hm
        rcases List.mem_cons.mp hm with rfl | hm
        · exact hc
        · exact h2 m hm
      · refine ⟨a.toNat, ?_, ?_⟩
        · rw [Int.toNat_of_nonneg ha]; exact List.mem_cons_self
        · intro m hm
          rcases List.mem_cons.mp hm with rfl | hm
          · omega
          · have := h2 m hm; omega

/-- **C109**: whenever no entry of several columns is in a row down to which an entry of a row above goes, the entries have places:
the first place which is free, in the order of the document. -/
theorem C109_places (d : CalsDoc) (ns : Option String) (size : Node → Nat × Nat) (hs : d.Sized ns size) (hno : d.NoCollision size) :
    ∃ d' : CalsDoc, d.SameElements d' ∧ d'.Placed ns ∧ (∃ w, d'.Width w) ∧ ∃ h, d'.Height h := by
  have hmem : ∀ r ∈ d.rows, ∀ e ∈ r.2.entries, (r.1, e) ∈ d.entries := fun r hr e he => List.mem_flatMap.mpr ⟨r, hr, List.mem_map_of_mem he⟩
  obtain ⟨rows', h1, h2, h3⟩ := placed_rows (size := size) d.rows (fun r hr e he => ⟨(hs.columns _ (hmem r hr e he)).1, (hs.rows _ (hmem r hr e he)).1⟩) hno d.rows.length
    (Nat.le_refl _)
  rw [List.take_length] at h1
  obtain ⟨bs', h4, h5⟩ := bodies_of_rows d.bodies rows' h1
  have hsame : d.SameElements ⟨d.table, d.tgroup, d.cols, bs'⟩ := ⟨rfl, rfl, rfl, h5⟩
  have hrows : (⟨d.table, d.tgroup, d.cols, bs'⟩ : CalsDoc).rows = rows' := h4
  have hent : (⟨d.table, d.tgroup, d.cols, bs'⟩ : CalsDoc).entries = entriesOf rows' := by unfold CalsDoc.entries; rw [hrows]; rfl
  have hfirst : ∃ r, (⟨d.table, d.tgroup, d.cols, bs'⟩ : CalsDoc).rows[0]? = some r ∧ r.2.entries ≠ [] := by
    obtain ⟨r, hr, hne⟩ := hs.first
    have := congrArg (fun l => l[0]?) h1
    simp only [List.getElem?_map, hr, Option.map_some] at this
    rw [hrows]
    cases hr' : rows'[0]? with
    | none => rw [hr'] at this; cases this
    | some r' =>
      rw [hr'] at this
      simp only [Option.map_some, Option.some.injEq, Prod.mk.injEq] at this
      refine ⟨r', rfl, ?_⟩
      intro hnil
      rw [hnil] at this
      exact hne (List.map_eq_nil_iff.mp this.2.2.symm)
  have hplaced : (⟨d.table, d.tgroup, d.cols, bs'⟩ : CalsDoc).Placed ns := by
    refine ⟨hfirst, by rw [hrows]; exact h2, ?_, ?_, by rw [hent]; exact h3.disjoint, by rw [hent]; exact h3.leftmost⟩
    · intro e he
      rw [hent] at he
      have := h3.valid e he
      have := h3.sizes e he
      omega
    · intro e he
      obtain ⟨e0, he0, _, hnode⟩ := same_entry hsame he
      have hc := (hs.columns e0 he0).2
      have hr := (hs.rows e0 he0).2
      rw [hent] at he
      obtain ⟨_, _, s1, s2⟩ := h3.sizes e he
      rw [hnode] at hc hr
      rw [show e.2.box.max.x - e.2.box.min.x + 1 = ((size e.2.node).1 : Int) by omega, show e.2.box.max.y - e.2.box.min.y + 1 = ((size e.2.node).2 : Int) by omega]
      exact ⟨hc, hr⟩
  have hlow : ∀ e ∈ (⟨d.table, d.tgroup, d.cols, bs'⟩ : CalsDoc).entries, 0 ≤ e.2.box.max.x ∧ 0 ≤ e.2.box.max.y := by
    intro e he
    have hv := hplaced.valid e he
    obtain ⟨r, hr, hm⟩ := List.mem_flatMap.mp he
    obtain ⟨a, ha, rfl⟩ := List.mem_map.mp hm
    obtain ⟨i, hi⟩ := List.getElem?_of_mem hr
    have := hplaced.starts i r hi a ha
    simp only at hv
    exact ⟨by simp only; omega, by simp only; omega⟩
  refine ⟨_, hsame, hplaced, ?_, ?_⟩
  · refine isMax_of ?_ ?_
    · obtain ⟨r, hr, hne⟩ := hfirst
      obtain ⟨a, ha⟩ := List.exists_mem_of_ne_nil _ hne
      refine List.ne_nil_of_mem (List.mem_append_left _ (List.mem_map_of_mem (f := fun e : Node × DocEntry => e.2.box.max.x) (a := (r.1, a)) ?_))
      exact List.mem_flatMap.mpr ⟨r, List.mem_of_getElem? hr, List.mem_map_of_mem ha⟩
    · intro m hm
      rcases List.mem_append.mp hm with hm | hm
      · obtain ⟨e, he, rfl⟩ := List.mem_map.mp hm
        exact (hlow e he).1
      · obtain ⟨c, _, rfl⟩ := List.mem_map.mp hm
        exact Int.natCast_nonneg _
  · refine isMax_of (by simp) ?_
    intro m hm
    rcases List.mem_append.mp hm with hm | hm
    · obtain ⟨e, he, rfl⟩ := List.mem_map.mp hm
      exact (hlow e he).2
    · simp only [List.mem_singleton] at hm
      subst hm
      exact Int.natCast_nonneg _

/-- **C109**: a CALS table is never refused because its rows have not all the same length: whatever the number of entries in each row and the number of
columns told, it is read as soon as its attributes can be read and no entry of several columns is in a row down to which an entry of a row above goes. -/
theorem C109_always_read (d : CalsDoc) (size : Node → Nat × Nat) (hn : d.Nested pc.ns) (hs : d.Sized pc.ns size) (hno : d.NoCollision size)
    (hc : ∃ w, d.Columns pc.ns w) (ha : Accepted pc d.table) (parent : Option Node) (s : PState) :
    ∃ (t : Table Content) (d' : CalsDoc) (w h : Nat), eval (CalsP.parseTable pc parent d.table) s = .ok (some t) ∧
      d.SameElements d' ∧ d'.Placed pc.ns ∧ d'.Width w ∧ d'.Height h ∧
      (∀ p : Coord, Covered t.cells p ↔ 1 ≤ p.x ∧ p.x ≤ w ∧ 1 ≤ p.y ∧ p.y ≤ h) ∧
      (∀ e ∈ d'.entries, ∃ c ∈ t.cells, c.box = e.2.box ∧ contentToks c.content = insideToks e.2.node) ∧
      (∀ c ∈ t.cells, (∃ e ∈ d'.entries, c.box = e.2.box) ∨ d'.EmptyPlace c) ∧ DisjointCells t.cells := by
  obtain ⟨d', hsame, hp, ⟨w, hw⟩, h, hh⟩ := C109_places d pc.ns size hs hno
  obtain ⟨w0, hc⟩ := hc
  have hc' : d'.Columns pc.ns w := by
    refine ⟨by rw [hsame.2.2.1]; exact hc.number, ?_, by rw [hsame.2.2.1]; exact hc.different⟩
    intro c hcm
    have := hw.2 (c.num : Int) (List.mem_append_right _ (List.mem_map.mpr ⟨c, hcm, rfl⟩))
    rw [hsame.2.2.1] at hcm
    have := (hc.inside c hcm).1
    omega
  obtain ⟨t, rows, cols, h1, _, _, _, _, h2, h3, h4, h5, _⟩ := C109_unequal_rows d' w h (same_nested hsame hn) hp hc' hw hh (by rw [hsame.1]; exact ha) parent s
  rw [hsame.1] at h1
  refine ⟨t, d', w, h, h1, hsame, hp, hw, hh, h2, ?_, h4, h5⟩
  intro e he
  obtain ⟨c, hcc, e1, e2, _⟩ := h3 e he
  exact ⟨c, hcc, e1, e2⟩

/-! ### examples and counterexamples -/

def ragC : Node := .elem (qn "colspec") [(qn "colnum", "4"), (qn "colwidth", "2cm")] none [] none
def ragR1 : Node := .elem (qn "row") [(qn "rowsep", "1")] none [docE1] none
def ragR2 : Node := .elem (qn "row") [] none [docE3, .comment "note" none, docE5, docE6] none
def ragR3 : Node := .elem (qn "row") [(qn "valign", "bottom")] none [docE2, docE3] none
def ragHead : Node := .elem (qn "thead") [] none [ragR1] none
def ragBody : Node := .elem (qn "tbody") [(qn "valign", "top")] none [ragR2, ragR3] none
def ragTg : Node := .elem (qn "tgroup") [(qn "cols", "2")] none [ragC, ragHead, ragBody] none
def ragTable : Node := .elem (qn "table") [(qn "frame", "all")] none [ragTg] none

/-- a table whose rows have two, three and three columns, whose `colspec` is that of a fourth column, and whose last entry goes below the last row -/
def ragDemo : CalsDoc :=
  ⟨ragTable, ragTg, [⟨ragC, 4⟩],
   [⟨ragHead, [⟨ragR1, [⟨docE1, ⟨⟨1, 1⟩, ⟨2, 1⟩⟩⟩]⟩]⟩,
    ⟨ragBody, [⟨ragR2, [⟨docE3, ⟨⟨1, 2⟩, ⟨1, 3⟩⟩⟩, ⟨docE5, ⟨⟨2, 2⟩, ⟨2, 2⟩⟩⟩, ⟨docE6, ⟨⟨3, 2⟩, ⟨3, 2⟩⟩⟩]⟩,
               ⟨ragR3, [⟨docE2, ⟨⟨2, 3⟩, ⟨2, 3⟩⟩⟩, ⟨docE3, ⟨⟨3, 3⟩, ⟨3, 4⟩⟩⟩]⟩]⟩]⟩

theorem ragDemo_nested : ragDemo.Nested none := by
  have no : ∀ n : Node, (∀ tk ∈ toksList [n], (match tk with
    | .opening t _ => decide (t.name ∉ ["table", "tgroup", "colspec", "thead", "tfoot", "tbody", "row", "entry"])
    | _ => true) = true) → NoCals none [n] := fun n h => noCals_of h
  refine ⟨rfl, .take _ _ _ .nil, rfl, .take _ _ _ (.take _ _ _ (.take _ _ _ .nil)), ?_, ?_, ?_, ?_⟩
  · intro c hc
    simp only [ragDemo, List.mem_cons, List.not_mem_nil, or_false] at hc
    subst hc
    exact ⟨rfl, noCals_of (by decide +kernel)⟩
  · intro b hb
    simp only [ragDemo, List.mem_cons, List.not_mem_nil, or_false] at hb
    rcases hb with rfl | rfl
    · exact ⟨⟨"thead", by simp, rfl⟩, .take _ _ _ .nil⟩
    · exact ⟨⟨"tbody", by simp, rfl⟩, .take _ _ _ (.take _ _ _ .nil)⟩
  · intro r hr
    simp only [ragDemo, CalsDoc.rows, List.flatMap_cons, List.flatMap_nil, List.map_cons, List.map_nil, List.cons_append, List.nil_append, List.append_nil,
      List.mem_cons, List.not_mem_nil, or_false] at hr
    rcases hr with rfl | rfl | rfl
    · exact ⟨rfl, .take _ _ _ .nil⟩
    · exact ⟨rfl, .take _ _ _ (.skip _ _ _ (no _ (by decide +kernel)) (.take _ _ _ (.take _ _ _ .nil)))⟩
    · exact ⟨rfl, .take _ _ _ (.take _ _ _ .nil)⟩
  · intro e he
    simp only [ragDemo, CalsDoc.rows, CalsDoc.entries, List.flatMap_cons, List.flatMap_nil, List.map_cons, List.map_nil, List.cons_append, List.nil_append,
      List.append_nil, List.mem_cons, List.not_mem_nil, or_false] at he
    rcases he with rfl | rfl | rfl | rfl | rfl | rfl <;> exact ⟨rfl, noCals_of (by decide +kernel)⟩

theorem ragDemo_columns : ragDemo.Columns none 4 := by
  refine ⟨?_, by decide +kernel, by decide +kernel⟩
  intro i c hi
  have hlt : i < 1 := (List.getElem?_eq_some_iff.mp hi).1
  have : i = 0 := by omega
  subst this
  cases hi
  exact .inr ⟨"4", rfl, isNumber_ascii (by decide) (by decide)⟩

/-- the columns and the rows which the entries of the example tell -/
def ragSize (n : Node) : Nat × Nat :=
  (if (n.attr (qn "namest")).isSome then 2 else 1, if (n.attr (qn "morerows")).isSome then 2 else 1)

theorem ragDemo_spans : ∀ e ∈ ragDemo.entries,
    SpansColumns (e.2.node.attr ⟨none, "namest"⟩) (e.2.node.attr ⟨none, "nameend"⟩) (ragSize e.2.node).1 ∧ SpansRows (e.2.node.attr ⟨none, "morerows"⟩) (ragSize e.2.node).2 := by
  intro e he
  simp only [ragDemo, CalsDoc.rows, CalsDoc.entries, List.flatMap_cons, List.flatMap_nil, List.map_cons, List.map_nil, List.cons_append, List.nil_append,
    List.append_nil, List.mem_cons, List.not_mem_nil, or_false] at he
  rcases he with rfl | rfl | rfl | rfl | rfl | rfl
  · exact ⟨.inr ⟨"c1", "c2", 1, 2, rfl, rfl, ⟨['c'], ['1'], [], by decide +kernel⟩, ⟨['c'], ['2'], [], by decide +kernel⟩, rfl⟩, .inl ⟨rfl, rfl⟩⟩
  · exact ⟨.inl ⟨rfl, rfl, rfl⟩, .inr ⟨"1", 1, rfl, isNumber_ascii (by decide) (by decide), rfl⟩⟩
  · exact ⟨.inl ⟨rfl, rfl, rfl⟩, .inl ⟨rfl, rfl⟩⟩
  · exact ⟨.inl ⟨rfl, rfl, rfl⟩, .inl ⟨rfl, rfl⟩⟩
  · exact ⟨.inl ⟨rfl, rfl, rfl⟩, .inl ⟨rfl, rfl⟩⟩
  · exact ⟨.inl ⟨rfl, rfl, rfl⟩, .inr ⟨"1", 1, rfl, isNumber_ascii (by decide) (by decide), rfl⟩⟩

theorem ragDemo_placed : ragDemo.Placed none := by
  have he : ragDemo.entries.map (·.2.box) = [⟨⟨1, 1⟩, ⟨2, 1⟩⟩, ⟨⟨1, 2⟩, ⟨1, 3⟩⟩, ⟨⟨2, 2⟩, ⟨2, 2⟩⟩, ⟨⟨3, 2⟩, ⟨3, 2⟩⟩, ⟨⟨2, 3⟩, ⟨2, 3⟩⟩, ⟨⟨3, 3⟩, ⟨3, 4⟩⟩] := rfl
  refine ⟨⟨_, rfl, by simp⟩, ?_, by decide +kernel, ?_, ?_, ?_⟩
  · intro i r hr e he
    have hi : i < 3 := (List.getElem?_eq_some_iff.mp hr).1
    have : i = 0 ∨ i = 1 ∨ i = 2 := by omega
    rcases this with rfl | rfl | rfl <;> cases hr <;> simp only [List.mem_cons, List.not_mem_nil, or_false] at he
    · subst he; rfl
    · rcases he with rfl | rfl | rfl <;> rfl
    · rcases he with rfl | rfl <;> rfl
  · intro e he
    have := ragDemo_spans e he
    simp only [ragDemo, CalsDoc.rows, CalsDoc.entries, List.flatMap_cons, List.flatMap_nil, List.map_cons, List.map_nil, List.cons_append, List.nil_append,
      List.append_nil, List.mem_cons, List.not_mem_nil, or_false] at he
    rcases he with rfl | rfl | rfl | rfl | rfl | rfl <;> exact this
  · have : (ragDemo.entries.map (·.2.box)).Pairwise (fun a b => ¬ Overlap a b) := by
      rw [he]
      simp only [List.pairwise_cons, List.mem_cons, List.not_mem_nil, or_false]
      simp only [Overlap, InBox]
      refine ⟨?_, ?_, ?_, ?_, ?_, ?_, List.Pairwise.nil⟩ <;>
      · rintro a h ⟨p, hp⟩
        rcases h with rfl | rfl | rfl | rfl | rfl <;> simp only at hp <;> omega
    rw [List.pairwise_map] at this
    exact this
  · intro pre e post hs x h1 h2
    have hb := congrArg (List.map (fun e : Node × DocEntry => e.2.box)) hs
    rw [he, List.map_append, List.map_cons] at hb
    have key : ∃ b ∈ pre.map (fun e : Node × DocEntry => e.2.box), InBox ⟨x, e.2.box.min.y⟩ b := by
      generalize pre.map (fun e : Node × DocEntry => e.2.box) = P at hb
      generalize post.map (fun e : Node × DocEntry => e.2.box) = Q at hb
      generalize e.2.box = B at hb h2
      rcases P with _ | ⟨p1, _ | ⟨p2, _ | ⟨p3, _ | ⟨p4, _ | ⟨p5, _ | ⟨p6, P⟩⟩⟩⟩⟩⟩ <;>
        simp only [List.nil_append, List.cons_append, List.cons.injEq, List.nil_eq, reduceCtorEq, and_false, List.append_eq_nil_iff] at hb
      · obtain ⟨rfl, _⟩ := hb; simp only at h2; omega
      · obtain ⟨rfl, rfl, _⟩ := hb; simp only at h2; omega
      · obtain ⟨rfl, rfl, rfl, _⟩ := hb
        exact ⟨⟨⟨1, 2⟩, ⟨1, 3⟩⟩, by simp, by simp only at h2; simp only [InBox]; omega⟩
      · obtain ⟨rfl, rfl, rfl, rfl, _⟩ := hb
        simp only at h2
        have : x = 1 ∨ x = 2 := by omega
        rcases this with rfl | rfl
        · exact ⟨⟨⟨1, 2⟩, ⟨1, 3⟩⟩, by simp, by simp [InBox]⟩
        · exact ⟨⟨⟨2, 2⟩, ⟨2, 2⟩⟩, by simp, by simp [InBox]⟩
      · obtain ⟨rfl, rfl, rfl, rfl, rfl, _⟩ := hb
        exact ⟨⟨⟨1, 2⟩, ⟨1, 3⟩⟩, by simp, by simp only at h2; simp only [InBox]; omega⟩
      · obtain ⟨rfl, rfl, rfl, rfl, rfl, rfl, _⟩ := hb
        simp only at h2
        have : x = 1 ∨ x = 2 := by omega
        rcases this with rfl | rfl
        · exact ⟨⟨⟨1, 2⟩, ⟨1, 3⟩⟩, by simp, by simp [InBox]⟩
        · exact ⟨⟨⟨2, 3⟩, ⟨2, 3⟩⟩, by simp, by simp [InBox]⟩
    obtain ⟨b, hb, hin⟩ := key
    obtain ⟨a, ha, rfl⟩ := List.mem_map.mp hb
    exact ⟨a, ha, hin⟩

/-- the hypotheses of `C109_unequal_rows` hold of a document whose rows have two, three and three columns, which has four columns and four rows -/
example : ∃ pc : CalsP.Config, ragDemo.Nested pc.ns ∧ ragDemo.Placed pc.ns ∧ ragDemo.Columns pc.ns 4 ∧ ragDemo.Width 4 ∧ ragDemo.Height 4 ∧ Accepted pc ragDemo.table := by
  refine ⟨⟨none, ['m', 'm'], id⟩, ragDemo_nested, ragDemo_placed, ragDemo_columns, ⟨by decide +kernel, by decide +kernel⟩, ⟨by decide +kernel, by decide +kernel⟩, ?_, ?_⟩
  · intro f hf _
    cases hf; decide
  · intro s hs _
    cases hs

/-- the hypotheses of `C109_places` and `C109_always_read` hold of the same document -/
example : ragDemo.Nested none ∧ ragDemo.Sized none ragSize ∧ ragDemo.NoCollision ragSize ∧ ∃ w, ragDemo.Columns none w := by
  refine ⟨ragDemo_nested, ⟨⟨_, rfl, by simp⟩, ?_, ?_⟩, ?_, 4, ragDemo_columns⟩
  · intro e he
    exact ⟨by unfold ragSize; split <;> omega, (ragDemo_spans e he).1⟩
  · intro e he
    exact ⟨by unfold ragSize; simp only; split <;> omega, (ragDemo_spans e he).2⟩
  · intro i j r q hr hq hij _ b hb
    have hj : j < 3 := (List.getElem?_eq_some_iff.mp hq).1
    have : j = 1 ∨ j = 2 := by omega
    rcases this with rfl | rfl <;> cases hq <;> simp only [List.mem_cons, List.not_mem_nil, or_false] at hb
    · rcases hb with rfl | rfl | rfl <;> rfl
    · rcases hb with rfl | rfl <;> rfl

def oneTable (rows : List Node) : Node :=
  .elem (qn "table") [] none [.elem (qn "tgroup") [(qn "cols", "3")] none [.elem (qn "tbody") [] none rows none] none] none

def plainRow (es : List Node) : Node := .elem (qn "row") [] none es none

def hasFailed {α : Type} : Except PyErr α → Bool
  | .ok _ => false
  | .error _ => true

/-- an entry of several columns which meets an entry going down from a row above is refused, although the table is valid for the schema:
the place taken is the first one which is free, and there is no room for it -/
theorem C109_collision_counterexample : ∃ (pc : CalsP.Config) (t : Node),
    t = oneTable [plainRow [docE5, docE3], plainRow [docE1]] ∧ docE3.attr (qn "morerows") = some "1" ∧
    docE1.attr (qn "namest") = some "c1" ∧ docE1.attr (qn "nameend") = some "c2" ∧
    hasFailed (eval (CalsP.parseTable pc none t) PState.init) = true :=
  ⟨⟨none, ['m', 'm'], id⟩, _, rfl, rfl, rfl, rfl, by decide +kernel⟩

/-- an entry which goes down over three rows -/
def tallEntry : Node := .elem (qn "entry") [(qn "morerows", "2")] (some "g") [] none

/-- an entry of three columns -/
def wideEntry : Node := .elem (qn "entry") [(qn "namest", "c1"), (qn "nameend", "c3")] (some "h") [] none

/-- an entry of several columns which crosses an entry going down is not refused: the table read has two cells at the same place.
Only the corners of the cells are compared (box.py, 220-223) -/
theorem C109_crossing_counterexample : ∃ (pc : CalsP.Config) (doc : Node) (t : Table Content) (c c' : Cell Content),
    doc = oneTable [plainRow [docE5, tallEntry, docE5], plainRow [wideEntry], plainRow [docE5, docE5]] ∧
    eval (CalsP.parseTable pc none doc) PState.init = .ok (some t) ∧ c ∈ t.grid.cells ∧ c' ∈ t.grid.cells ∧
    c.box = ⟨⟨2, 1⟩, ⟨2, 3⟩⟩ ∧ c'.box = ⟨⟨1, 2⟩, ⟨3, 2⟩⟩ ∧ InBox ⟨2, 2⟩ c.box ∧ InBox ⟨2, 2⟩ c'.box := by
  have h : boxesOf (eval (CalsP.parseTable ⟨none, ['m', 'm'], id⟩ none
      (oneTable [plainRow [docE5, tallEntry, docE5], plainRow [wideEntry], plainRow [docE5, docE5]])) PState.init) =
      [(1, 1, 1, 1), (2, 1, 2, 3), (3, 1, 3, 1), (1, 2, 3, 2), (1, 3, 1, 3), (3, 3, 3, 3)] := by decide +kernel
  generalize hr : eval (CalsP.parseTable ⟨none, ['m', 'm'], id⟩ none
      (oneTable [plainRow [docE5, tallEntry, docE5], plainRow [wideEntry], plainRow [docE5, docE5]])) PState.init = r at h
  match r, h with
  | .error _, h => simp [boxesOf] at h
  | .ok none, h => simp [boxesOf] at h
  | .ok (some t), h =>
    have hm : t.grid.cells.map (fun c => (c.box.min.x, c.box.min.y, c.box.max.x, c.box.max.y)) = _ := h
    obtain ⟨c, hc, hcb⟩ := List.mem_map.mp (show ((2, 1, 2, 3) : Int × Int × Int × Int) ∈ t.grid.cells.map _ by rw [hm]; simp)
    obtain ⟨c', hc', hcb'⟩ := List.mem_map.mp (show ((1, 2, 3, 2) : Int × Int × Int × Int) ∈ t.grid.cells.map _ by rw [hm]; simp)
    have e : c.box = ⟨⟨2, 1⟩, ⟨2, 3⟩⟩ := by
      revert hcb
      generalize c.box = b
      intro h
      obtain ⟨⟨_, _⟩, ⟨_, _⟩⟩ := b
      simp only [Prod.mk.injEq] at h
      obtain ⟨rfl, rfl, rfl, rfl⟩ := h
      rfl
    have e' : c'.box = ⟨⟨1, 2⟩, ⟨3, 2⟩⟩ := by
      revert hcb'
      generalize c'.box = b
      intro h
      obtain ⟨⟨_, _⟩, ⟨_, _⟩⟩ := b
      simp only [Prod.mk.injEq] at h
      obtain ⟨rfl, rfl, rfl, rfl⟩ := h
      rfl
    exact ⟨_, _, t, c, c', rfl, hr, hc, hc', e, e', by rw [e]; simp [InBox], by rw [e']; simp [InBox]⟩

/-- the names of the columns of an entry must hold a number: a table whose columns are named in letters is refused, although it is valid for the schema -/
theorem C109_names_counterexample : ∃ (pc : CalsP.Config) (t : Node),
    t = oneTable [plainRow [.elem (qn "entry") [(qn "namest", "left"), (qn "nameend", "right")] (some "a") [] none]] ∧
    hasFailed (eval (CalsP.parseTable pc none t) PState.init) = true :=
  ⟨⟨none, ['m', 'm'], id⟩, _, rfl, by decide +kernel⟩

/-- a table whose first row is empty is refused, although an empty row is read anywhere else -/
theorem C109_first_row_counterexample : ∃ (pc : CalsP.Config) (t t' : Node),
    t = oneTable [plainRow [], plainRow [docE5]] ∧ t' = oneTable [plainRow [docE5], plainRow []] ∧
    hasFailed (eval (CalsP.parseTable pc none t) PState.init) = true ∧ hasFailed (eval (CalsP.parseTable pc none t') PState.init) = false :=
  ⟨⟨none, ['m', 'm'], id⟩, _, _, rfl, rfl, by decide +kernel, by decide +kernel⟩

end Benker
