import Verif.Lemmas.FormexRagged
import Verif.Props.CalsRagged

/-! C110: what the Formex parser reads in a Formex table whose rows have not all the same length. -/

namespace Benker
open PyM Cals CalsSpec FmxSpec

variable {pc : FmxP.Config}

theorem drawnOf_all (d : FmxDoc) : drawnOf d.all = d.drawn := rfl

theorem line_goodF {w outer : Nat} {parent : Option Node} {d : FmxDoc} (hn : d.Nested pc.ns pc.calsNs outer parent) (hd : d.Placed pc.ns pc.calsNs w) :
    ∀ l ∈ d.lines, LineGoodF pc l := by
  intro l hl
  have hall : l ∈ d.all := List.mem_append_left _ hl
  obtain ⟨h1, h2⟩ := hn.lines l hl
  refine ⟨h1, h2, ?_, ?_, hd.places l hl, hd.openEnd l hall⟩
  · intro hr
    obtain ⟨h3, h4⟩ := hn.rows l hl hr
    obtain ⟨h5, h6⟩ := hd.rows l hl hr
    exact ⟨h5, h3, fun c hc => ⟨(h4 c hc).1, (h4 c hc).2, (h6 c hc).1, (h6 c hc).2⟩⟩
  · intro hr
    have h3 := hn.whole l hall hr
    obtain ⟨c, hc⟩ : ∃ c, l.cells = [c] := List.length_eq_one_iff.mp (by simpa using congrArg List.length h3)
    rw [hc] at h3
    obtain ⟨a, b, g1, g2, g3, g4, g5⟩ := hd.titles l hl hr c (by rw [hc]; simp)
    exact ⟨hn.titles l hl hr, c, a, b, hc, by simpa using h3, g1, g2, g3, g4, g5⟩

theorem note_goodF {w outer : Nat} {parent : Option Node} {d : FmxDoc} (hn : d.Nested pc.ns pc.calsNs outer parent) (hd : d.Placed pc.ns pc.calsNs w) :
    ∀ l ∈ d.notes, NoteGood w l := by
  intro l hl
  have hs := hn.notes.2 l hl
  have h3 := hn.whole l (List.mem_append_right _ hl) (by rw [hs]; decide)
  obtain ⟨c, hc⟩ : ∃ c, l.cells = [c] := List.length_eq_one_iff.mp (by simpa using congrArg List.length h3)
  rw [hc] at h3
  obtain ⟨h4, h6⟩ := hd.notes l hl
  exact ⟨hs, h4, hd.openEnd l (List.mem_append_right _ hl), c, hc, by simpa using h3, h6 c (by rw [hc]; simp)⟩

theorem inside_w {w : Nat} {d : FmxDoc} (hn : ∀ l ∈ d.notes, l.before = [] ∧ ∀ c ∈ l.cells, c.box.min.x = 1 ∧ c.box.max.x = w ∧ c.box.max.y = c.box.min.y)
    (ho : ∀ l ∈ d.all, l.after = []) (hw : d.Width w) : ∀ e ∈ d.drawn, e.2.2.max.x ≤ w := by
  intro e he
  obtain ⟨l, hl, he⟩ := List.mem_flatMap.mp he
  obtain ⟨e, hel, rfl⟩ := List.mem_map.mp he
  rcases List.mem_append.mp hl with h | h
  · exact hw.2 _ (List.mem_append_left _ (List.mem_flatMap.mpr ⟨l, h, List.mem_map.mpr ⟨e, hel, rfl⟩⟩))
  · obtain ⟨h1, h2⟩ := hn l h
    unfold DocLine.drawn at hel
    rw [h1, ho l hl] at hel
    simp only [List.map_nil, List.nil_append, List.append_nil] at hel
    obtain ⟨c, hc, rfl⟩ := List.mem_map.mp hel
    exact Int.le_of_eq (h2 c hc).2.1

theorem planF {w h : Nat} {d : FmxDoc} (hd : d.Placed pc.ns pc.calsNs w) (hw : d.Width w) (hh : d.Height h) {G : Goal} (hGw : G.w = w)
    (hGh : G.h = h) (hG : G.rowOK = LineOK pc d.all) : PlanF pc G d.all := by
  have hrows : (d.all.length : Int) ≤ h := hh.2 _ (by simp)
  refine ⟨?_, ?_, hG, by omega⟩
  · obtain ⟨l, h1, h2⟩ := hd.first
    have hlt := (List.getElem?_eq_some_iff.mp h1).1
    exact ⟨l, by unfold FmxDoc.all; rw [List.getElem?_append_left hlt]; exact h1, h2⟩
  · intro pre l post hr a e b he
    have hsplit : d.drawn = (drawnOf pre ++ a.map (fun e => (l, e))) ++ (l, e) :: (b.map (fun e => (l, e)) ++ drawnOf post) := by
      rw [← drawnOf_all, hr]
      unfold drawnOf
      rw [List.flatMap_append, List.flatMap_cons, he]
      simp
    have hm : (l, e) ∈ d.drawn := by rw [hsplit]; simp
    have hv := hd.valid _ hm
    have hs : e.2.min.y = (pre.length : Int) + 1 := hd.starts pre.length l (by rw [hr]; simp) e (by rw [he]; simp)
    have hx : e.2.max.x ≤ w := inside_w hd.notes hd.openEnd hw _ hm
    have hy : e.2.max.y ≤ h := hh.2 _ (List.mem_append_left _ (List.mem_map.mpr ⟨_, hm, rfl⟩))
    refine ⟨?_, by rw [hs]; simp, by rw [hGw, hGh]; exact ⟨hx, hy⟩, ?_, ?_⟩
    · simp only at hv
      unfold Box.Valid; omega
    · intro a' ha'
      have := hd.disjoint
      rw [hsplit, List.pairwise_append] at this
      exact this.2.2 a' ha' (l, e) List.mem_cons_self
    · intro x h1 h2
      exact hd.leftmost _ _ _ hsplit x h1 h2

theorem emptyPlaceF {d : FmxDoc} {G : Goal} (hG : G.rowOK = LineOK pc d.all) {k : Nat} (hk : G.known = k) (hk1 : ∀ c ∈ d.cols, c.num ≤ k) (hk2 : k = 0 ∨ ∃ c ∈ d.cols, c.num = k)
    {c : Cell Content} (hv : c.box.Valid) (h1 : AddedCell c)
    (h2 : AddedInRow drawnBox G (drawnOf d.all) d.all.length c ∨ c.nature = none ∧ ¬ (c.box.min.y ≤ d.all.length ∧ Reach drawnBox G (drawnOf d.all) c.box.min)) :
    d.EmptyPlace pc.ns c := by
  unfold Box.Valid at hv
  have hreach : Reach drawnBox G (drawnOf d.all) c.box.min ↔ d.Known c.box.min := by
    unfold Reach FmxDoc.Known
    rw [hk]
    constructor
    · rintro (h | h)
      · rcases hk2 with h0 | ⟨c', hc', h0⟩
        · omega
        · exact .inl ⟨c', hc', by omega⟩
      · exact .inr h
    · rintro (⟨c', hc', h⟩ | h)
      · have := hk1 c' hc'
        exact .inl (by omega)
      · exact .inr h
  refine ⟨h1.1, h1.2.1, h1.2.2, ?_⟩
  rcases h2 with ⟨h3, ⟨st, h4⟩, h5⟩ | ⟨h3, h4⟩
  · rw [hG] at h4
    obtain ⟨l, hl, hn, _⟩ := h4
    exact .inl ⟨_, l, by omega, hl, hn, hreach.mp h5⟩
  · refine .inr ⟨h3, ?_⟩
    by_cases h5 : c.box.min.y ≤ d.all.length
    · exact .inr fun h => h4 ⟨h5, hreach.mpr h⟩
    · exact .inl (by omega)

/-- **C110**: a Formex table is read as it is drawn even when its rows have not all the same length.  Each cell is at the first place of its row which what is
before it leaves, each title after as many places as it tells; as long as nothing is drawn over something else the table is read: there is a cell for each of them, at
this place, with its content, its kind and its looks; the other places of the rectangle, which goes to the last column of a cell, of a title or of a `colspec` and to the last row, are empty
cells, which have the kind of their row if their column is known when the row ends.  The notes are below, as wide as the table.
The looks of the rows, of the columns and of the table are those which their attributes tell. -/
theorem C110_formex_unequal_rows (d : FmxDoc) (w h outer : Nat) (parent : Option Node) (hn : d.Nested pc.ns pc.calsNs outer parent) (hd : d.Placed pc.ns pc.calsNs w)
    (hc : d.Columns pc.calsNs w) (hw : d.Width w) (hh : d.Height h) (ha : FrameAccepted pc.calsNs d.corpus) (s : PState) :
    ∃ (t : Table Content) (rows cols : List (View Content)), eval (FmxP.parseTable pc outer parent d.corpus) s = .ok (some t) ∧
      eval (Table.views .row) t = .ok rows ∧ eval (Table.views .col) t = .ok cols ∧ rows.length = h ∧ cols.length = w ∧
      (∀ p : Coord, Covered t.cells p ↔ 1 ≤ p.x ∧ p.x ≤ w ∧ 1 ≤ p.y ∧ p.y ≤ h) ∧
      (∀ e ∈ d.drawn, ∃ c ∈ t.cells, c.box = e.2.2 ∧ Shown pc.ns pc.calsNs pc.embedGrNotes e.1 e.2.1 c) ∧
      (∀ c ∈ t.cells, (∃ e ∈ d.drawn, c.box = e.2.2) ∨ d.EmptyPlace pc.ns c) ∧ DisjointCells t.cells ∧
      (∀ (i : Nat) (l : DocLine), d.all[i]? = some l →
        ∃ v, rows[i]? = some v ∧ v.nature = some (l.kind pc.ns) ∧ (l.sort ≠ .note → LineShown pc.ns pc.calsNs l v.styles)) ∧
      (∀ c ∈ d.cols, ∃ v, cols[c.num - 1]? = some v ∧ ColShown pc.calsNs c.node v.styles) ∧
      CorpusShown pc.ns pc.calsNs parent d.corpus t.styles ∧
      CorpusNature (parent.bind (fun p => p.attr ⟨pc.ns, "CLASS"⟩)) (d.corpus.attr ⟨pc.calsNs, "tabstyle"⟩) t.nature := by
  obtain ⟨k, hk1, hk2⟩ := max_num d.cols
  have hkw : k ≤ w := by
    rcases hk2 with rfl | ⟨c, hcm, rfl⟩
    · exact Nat.zero_le _
    · exact (hc.inside c hcm).2
  obtain ⟨st, hst⟩ := frameAccepted_ok (parent := parent) ha
  obtain ⟨top, bottom, hch, htop, hbottom⟩ := hn.inCorpus
  have htag : d.corpus.tag? = some (pc.f "CORPUS") := hn.corpus
  let nature := FmxP.corpusNature pc parent d.corpus
  let G : Goal := ⟨w, h, k, LineOK pc d.all, DocColRead (calsOf pc) d.cols, copyStyles (some st), nature⟩
  have hplan : PlanF pc G d.all := planF hd hw hh rfl rfl rfl
  have hlines : d.lines ≠ [] := by
    obtain ⟨l, h1, _⟩ := hd.first
    intro e; rw [e] at h1; cases h1
  have hwid : (∃ e ∈ drawnOf d.lines, e.2.2.max.x = G.w) ∨ G.known = G.w := by
    rcases List.mem_append.mp hw.1 with hm | hm
    · obtain ⟨l, hl, hm⟩ := List.mem_flatMap.mp hm
      obtain ⟨e, he, hx⟩ := List.mem_map.mp hm
      exact .inl ⟨(l, e), List.mem_flatMap.mpr ⟨l, hl, List.mem_map_of_mem he⟩, hx⟩
    · obtain ⟨c, hcm, hx⟩ := List.mem_map.mp hm
      have := hk1 c hcm
      exact .inr (by show k = w; omega)
  have run1 : Runs (fun s => s = PState.init) (AtDocCols (calsOf pc) k (copyStyles (some st)) nature []) (FmxP.parseCorpus pc parent d.corpus) := by
    rintro s rfl
    have hnew : Table.new ([] : List (Cell Content)) (some st) nature = .ok ⟨copyStyles (some st), nature, Grid.empty, none, none⟩ := rfl
    refine ⟨{ PState.init with table := some ⟨copyStyles (some st), nature, Grid.empty, none, none⟩ }, ?_,
      ⟨_, rfl, rfl, rfl, ⟨Grid.empty_inv, fun ax vs hv => by cases ax <;> cases hv⟩, rfl, rfl, Nat.zero_le _, by simp, ⟨rfl, rfl⟩, by simp, ?_⟩⟩
    · unfold FmxP.parseCorpus
      simp only [bind_run, lift_run, hst]
      rw [hnew]
      rfl
    · intro j v hv
      exact absurd hv (by
        have : (Table.baseViews Axis.col (⟨copyStyles (some st), nature, Grid.empty, none, none⟩ : Table Content)) = [] := rfl
        rw [this]; simp)
  have run2 : Runs (AtDocCols (calsOf pc) k (copyStyles (some st)) nature []) (GapF pc G (drawnOf d.lines) d.lines.length)
      (FmxP.loop pc 1 outer (walkList (FmxP.selected pc) (some d.corpus) d.corpus.children)) := by
    rw [hch, walkList_append, among_walk htop, ← walkList_append]
    refine FmxP.runs_loop_append (Q := AtDocCols (calsOf pc) k (copyStyles (some st)) nature d.cols) ?_ ?_
    · exact runs_fmxDocCols (some d.corpus) d.cols [] (fun i c hi => by
          obtain ⟨h1, h2⟩ := hn.cols c (List.mem_of_getElem? hi)
          refine ⟨h1, h2, ?_⟩
          simp only [List.length_nil, Nat.zero_add]
          exact hc.number i c hi) (fun c hcm => ⟨(hc.inside c hcm).1, hk1 c hcm⟩) (by simpa using hc.different)
    · intro s hs
      have hgap : GapF pc G (drawnOf []) 0 s := docCols_rag hkw hk2 (LineOK pc d.all) hs
      exact runs_linesF hplan hbottom [] d.notes (some d.corpus) rfl (line_goodF hn hd) s hgap
  have run3 : Runs (GapF pc G (drawnOf d.lines) d.lines.length) (GapF pc G (drawnOf d.all) d.all.length)
      (forEach (fun n => do PState.nextRow; FmxP.parseNotes pc n) (FmxP.notesOf pc parent)) := by
    rw [notes_eq htag hn.notes.1]
    exact runs_notesF hplan d.notes d.lines hlines rfl (note_goodF hn hd) hwid
  obtain ⟨s1, r1, q1⟩ := run1 _ rfl
  obtain ⟨s2, r2, q2⟩ := run2 _ q1
  obtain ⟨s3, r3, q3⟩ := run3 _ q2
  obtain ⟨a3, b3, row3, tb3⟩ := s3
  obtain ⟨t0, e1, e2, href⟩ := q3
  simp only at e1 e2
  subst e1 e2
  have hmemb : ∀ e ∈ drawnOf d.lines, e ∈ d.drawn := by
    intro e he
    rw [← drawnOf_all]
    unfold drawnOf FmxDoc.all at *
    rw [List.flatMap_append]; exact List.mem_append_left _ he
  have hne : drawnOf d.all ≠ [] := drawnOf_ne (post := []) (by simp) (by unfold FmxDoc.all; simp [hlines]) hplan
  have hlen : 1 ≤ d.all.length := by
    have := List.length_pos_of_ne_nil hlines
    unfold FmxDoc.all; rw [List.length_append]; omega
  have hrh : (d.all.length : Int) ≤ h := hh.2 _ (by simp)
  obtain ⟨t', hfill, hr, hcov⟩ := Rag.fillHoles drawnIs_box href (h := h) hne rfl (hwid.imp (fun ⟨e, he, hx⟩ => ⟨e, hmemb e he, hx⟩) id) (by
      rcases List.mem_append.mp hh.1 with hm | hm
      · obtain ⟨e, he, hx⟩ := List.mem_map.mp hm
        exact .inl ⟨e, he, hx⟩
      · simp only [List.mem_singleton] at hm
        exact .inr (by omega)) ⟨hlen, by omega⟩ (by
      intro e he
      exact ⟨inside_w hd.notes hd.openEnd hw e he, hh.2 _ (List.mem_append_left _ (List.mem_map.mpr ⟨_, he, rfl⟩))⟩)
  have hw1 : 1 ≤ w := by
    obtain ⟨e, he⟩ := List.exists_mem_of_ne_nil _ hne
    have := hd.valid e he
    have := inside_w hd.notes hd.openEnd hw e he
    omega
  have hln : ∀ ax, (t'.baseViews ax).length = (match ax with | .row => h | .col => w) := by
    intro ax
    obtain ⟨c, hcc, hp⟩ := (hcov ⟨w, h⟩).mpr (by show 1 ≤ (w : Int) ∧ (w : Int) ≤ w ∧ 1 ≤ (h : Int) ∧ (h : Int) ≤ h; omega)
    have l1 := hr.lines ax
    have l2 := (Table.base_describes hr.inv ax).enough c hcc
    simp only [InBox] at hp
    cases ax <;> simp only [lastLine, Cell.max, Goal.bound] at l1 l2 ⊢ <;> (have e1 : G.h = h := rfl; have e2 : G.w = w := rfl; omega)
  refine ⟨t', t'.baseViews .row, t'.baseViews .col, ?_, ?_, ?_, hln .row, hln .col, hcov, ?_, ?_, ?_, ?_, ?_, ?_, ?_⟩
  · unfold eval
    rw [FmxP.parseTable_run outer parent htag]
    have hend : FmxP.endCorpus pc parent s2 = (.ok (), ⟨a3, d.all.length, row3, some t'⟩) := by
      unfold FmxP.endCorpus
      simp only [bind_run] at r3 ⊢
      simp only [r3, onTable_mk, hfill]
    simp only [bind_run, r1, r2, hend, get_run, pure_run]
  · unfold eval; rw [Table.views_run .row t' hr.inv.grid]
  · unfold eval; rw [Table.views_run .col t' hr.inv.grid]
  · intro e he
    obtain ⟨c, hcc, h1, h2⟩ := hr.read e he
    exact ⟨c, hcc, h1, place_shown h2⟩
  · intro c hcc
    rcases hr.only c hcc with ⟨e, he, h1⟩ | ⟨h1, h2⟩
    · exact .inl ⟨e, he, h1.1⟩
    · exact .inr (emptyPlaceF (pc := pc) (G := G) rfl rfl hk1 hk2 (hr.inv.grid.valid c hcc) h1 h2)
  · refine (crosswise_inv _ hr.inv.grid).imp_of_mem ?_
    intro a b hac hbc hcross hov
    obtain ⟨p, h1, h2⟩ := hov
    have hone : ∀ c : Cell Content, AddedCell c → InBox p c.box → p = c.min := by
      rintro c ⟨_, _, h3⟩ h4
      simp only [InBox, h3] at h4
      simp only [Cell.min]
      cases p
      cases hm : c.box.min
      rw [hm] at h4
      simp only [Coord.mk.injEq] at h4 ⊢
      omega
    rcases hr.only a hac with ⟨ea, hea, ra⟩ | ⟨ra, _⟩
    · rcases hr.only b hbc with ⟨eb, heb, rb⟩ | ⟨rb, _⟩
      · have e1 : a.box = ea.2.2 := ra.1
        have e2 : b.box = eb.2.2 := rb.1
        have hab : ea = eb := by
          refine pairwise_unique hd.disjoint hea heb (fun x y h1 ⟨q, h2, h3⟩ => h1 ⟨q, h3, h2⟩) ?_
          intro hn
          exact hn ⟨p, by rw [← e1]; exact h1, by rw [← e2]; exact h2⟩
        subst hab
        have hv := hr.inv.grid.valid a hac
        refine hcross.1 ?_
        rw [e2, ← e1]
        unfold Box.Valid at hv
        simp only [InBox, Cell.min]
        omega
      · exact hcross.2.2.1 (by rw [← hone b rb h2]; exact h1)
    · exact hcross.1 (by rw [← hone a ra h1]; exact h2)
  · intro i l hil
    have hlt := (List.getElem?_eq_some_iff.mp hil).1
    obtain ⟨vs, v, hvs, hv, hok⟩ := hr.rowLooks i hlt
    have e1 : t'.baseViews .row = vs := base_of_some hvs
    obtain ⟨l', hl', hok1, hok2, hok3⟩ := hok
    rw [hil] at hl'; cases hl'
    refine ⟨v, by rw [e1]; exact hv, hok1, ?_⟩
    intro hs
    cases hsort : l.sort with
    | note => exact absurd hsort hs
    | row => rw [hok2 hsort]; exact rowLine_shown hsort
    | title => rw [hok3 (.inl hsort)]; exact title_shown (.inl hsort)
    | subtitle => rw [hok3 (.inr hsort)]; exact title_shown (.inr hsort)
  · intro c hcm
    have hnum := hc.inside c hcm
    have := hk1 c hcm
    obtain ⟨vs, v', hvs, hv', hok⟩ := hr.colLooks (c.num - 1) (by show c.num - 1 < k; omega)
    have e1 : t'.baseViews .col = vs := base_of_some hvs
    refine ⟨v', by rw [e1]; exact hv', ?_⟩
    rcases hok with ⟨c', hc', hnum', hok⟩ | ⟨hno, _⟩
    · have : c' = c := by
        refine pairwise_unique hc.different hc' hcm (fun a b h e => h e.symm) ?_
        omega
      subst this
      rw [hok]
      exact col_shown (pc := calsOf pc) _
    · exact absurd (by omega) (hno c hcm)
  · rw [hr.same.1]
    exact corpus_shown hst
  · rw [hr.same.2]
    exact corpus_nature _ _

/-! ### examples -/

def fragA : Node := .elem (qn "CELL") [(qn "COL", "1"), (qn "TYPE", "TOTAL"), (qn "ROWSPAN", "2")] (some "a") [] none
def fragR1 : Node := .elem (qn "ROW") [(qn "TYPE", "TOTAL")] none [fragA] none
def fragT : Node := .elem (qn "TI.BLK") [(qn "COL.START", "2"), (qn "COL.END", "3")] none [.elem (qn "P") [] (some "Title") [] none] none
def fragB : Node := .elem (qn "CELL") [(qn "COL", "1")] (some "b") [] none
def fragC : Node := .elem (qn "CELL") [(qn "COL", "2"), (qn "COLSPAN", "2")] (some "c") [] none
def fragR2 : Node := .elem (qn "ROW") [] none [fragB, .comment "short" none, fragC] none
def fragBlk : Node := .elem (qn "BLK") [] none [fragT, fragR2] none
def fragCol : Node := .elem (cq "colspec") [(cq "colnum", "2"), (cq "align", "right")] none [] none
def fragCorpus : Node := .elem (qn "CORPUS") [(cq "frame", "all")] none [fragCol, fragR1, fragBlk] none
def fragN : Node := .elem (qn "GR.NOTES") [] none [.elem (qn "NOTE") [] (some "n") [] none] none
def fragTbl : Node := .elem (qn "TBL") [(qn "CLASS", "GEN")] none [fragN, fragCorpus] none

/-- a document whose rows have one, four and three columns, with a title beside a cell which goes down, and a note -/
def fragDemo : FmxDoc :=
  ⟨fragCorpus, [⟨fragCol, 2⟩],
   [⟨.row, fragR1, 0, [], [⟨fragA, ⟨⟨1, 1⟩, ⟨1, 2⟩⟩⟩], []⟩,
    ⟨.title, fragT, 1, [⟨⟨2, 2⟩, ⟨2, 2⟩⟩], [⟨fragT, ⟨⟨3, 2⟩, ⟨4, 2⟩⟩⟩], []⟩,
    ⟨.row, fragR2, 1, [], [⟨fragB, ⟨⟨1, 3⟩, ⟨1, 3⟩⟩⟩, ⟨fragC, ⟨⟨2, 3⟩, ⟨3, 3⟩⟩⟩], []⟩],
   [⟨.note, fragN, 0, [], [⟨fragN, ⟨⟨1, 4⟩, ⟨4, 4⟩⟩⟩], []⟩]⟩

theorem fragDemo_nested : fragDemo.Nested none (some "c") 0 (some fragTbl) := by
  have no : ∀ n : Node, (∀ tk ∈ toksList [n], (match tk with
    | .opening t _ => decide (t.name ∉ ["CORPUS", "ROW", "CELL", "MARGIN", "BLK", "TI.BLK", "STI.BLK", "colspec"])
    | _ => true) = true) → NoFmx none (some "c") [n] := fun n h => noFmx_of h
  refine ⟨rfl, ⟨[fragCol], [fragR1, fragBlk], rfl, .take _ _ _ .nil, ?_⟩, ?_, ⟨?_, ?_⟩, ?_, ?_, ?_, ?_⟩
  · refine .line 0 ⟨.row, fragR1, 0, [], _, []⟩ _ _ rfl ?_
    refine .block 0 fragBlk [_, _] [] [] rfl ?_ (.nil 0)
    refine .line 1 ⟨.title, fragT, 1, _, _, []⟩ _ _ rfl ?_
    exact .line 1 ⟨.row, fragR2, 1, [], _, _⟩ _ _ rfl (.nil 1)
  · intro c hc
    simp only [fragDemo, List.mem_cons, List.not_mem_nil, or_false] at hc
    rcases hc with rfl; exact ⟨rfl, noFmx_of (by decide +kernel)⟩
  · exact .inr ⟨fragTbl, [fragN], [], rfl, rfl, by decide +kernel, rfl⟩
  · decide +kernel
  · decide +kernel
  · intro l hl hs
    simp only [fragDemo, List.mem_cons, List.not_mem_nil, or_false] at hl
    rcases hl with rfl | rfl | rfl
    · refine ⟨.take _ _ _ .nil, ?_⟩
      intro c hc
      simp only [List.mem_cons, List.not_mem_nil, or_false] at hc
      rcases hc with rfl; exact ⟨rfl, noFmx_of (by decide +kernel)⟩
    · cases hs
    · refine ⟨.take _ _ _ (.skip _ _ _ (no _ (by decide +kernel)) (.take _ _ _ .nil)), ?_⟩
      intro c hc
      simp only [List.mem_cons, List.not_mem_nil, or_false] at hc
      rcases hc with rfl | rfl <;> exact ⟨rfl, noFmx_of (by decide +kernel)⟩
  · intro l hl hs
    simp only [fragDemo, List.mem_cons, List.not_mem_nil, or_false] at hl
    rcases hl with rfl | rfl | rfl
    · exact absurd rfl hs
    · exact noFmx_of (by decide +kernel)
    · exact absurd rfl hs
  · intro l hl hs
    simp only [fragDemo, FmxDoc.all, List.cons_append, List.nil_append, List.mem_cons, List.not_mem_nil, or_false] at hl
    rcases hl with rfl | rfl | rfl | rfl
    · exact absurd rfl hs
    · rfl
    · exact absurd rfl hs
    · rfl

theorem fragDemo_placed : fragDemo.Placed none (some "c") 4 := by
  have he : fragDemo.drawn.map (·.2.2) = [⟨⟨1, 1⟩, ⟨1, 2⟩⟩, ⟨⟨2, 2⟩, ⟨2, 2⟩⟩, ⟨⟨3, 2⟩, ⟨4, 2⟩⟩, ⟨⟨1, 3⟩, ⟨1, 3⟩⟩, ⟨⟨2, 3⟩, ⟨3, 3⟩⟩, ⟨⟨1, 4⟩, ⟨4, 4⟩⟩] := rfl
  have plain : ToldNumber none 1 1 := .inl ⟨rfl, rfl⟩
  have two : ToldNumber (some "2") 1 2 := .inr ⟨"2", rfl, isNumber_ascii (by decide) (by decide)⟩
  refine ⟨by decide +kernel, ⟨_, rfl, by simp⟩, ?_, ?_, ?_, by decide +kernel, by decide +kernel, by decide +kernel, ?_, ?_⟩
  · intro i l hl e he
    have hi : i < 4 := (List.getElem?_eq_some_iff.mp hl).1
    have : i = 0 ∨ i = 1 ∨ i = 2 ∨ i = 3 := by omega
    rcases this with rfl | rfl | rfl | rfl <;> cases hl <;> revert e <;> decide +kernel
  · intro l hl hs
    simp only [fragDemo, List.mem_cons, List.not_mem_nil, or_false] at hl
    rcases hl with rfl | rfl | rfl
    · refine ⟨rfl, ?_⟩
      intro c hc
      simp only [List.mem_cons, List.not_mem_nil, or_false] at hc
      rcases hc with rfl
      exact ⟨⟨1, plain, .inr ⟨.inl rfl, rfl⟩⟩, ⟨2, two, .inr ⟨rfl, rfl⟩⟩⟩
    · cases hs
    · refine ⟨rfl, ?_⟩
      intro c hc
      simp only [List.mem_cons, List.not_mem_nil, or_false] at hc
      rcases hc with rfl | rfl
      · exact ⟨⟨1, plain, .inr ⟨.inl rfl, rfl⟩⟩, ⟨1, plain, .inr ⟨rfl, rfl⟩⟩⟩
      · exact ⟨⟨2, two, .inr ⟨.inl rfl, rfl⟩⟩, ⟨1, plain, .inr ⟨rfl, rfl⟩⟩⟩
  · intro l hl hs c hc
    simp only [fragDemo, List.mem_cons, List.not_mem_nil, or_false] at hl
    rcases hl with rfl | rfl | rfl
    · exact absurd rfl hs
    · simp only [List.mem_cons, List.not_mem_nil, or_false] at hc
      rcases hc with rfl
      exact ⟨2, 3, two, .inr ⟨"3", rfl, isNumber_ascii (by decide) (by decide)⟩, rfl, rfl, rfl⟩
    · exact absurd rfl hs
  · have : (fragDemo.drawn.map (·.2.2)).Pairwise (fun a b => ¬ Overlap a b) := by
      rw [he]
      simp only [List.pairwise_cons, List.mem_cons, List.not_mem_nil, or_false]
      simp only [Overlap, InBox]
      refine ⟨?_, ?_, ?_, ?_, ?_, ?_, List.Pairwise.nil⟩ <;>
      · rintro a h ⟨p, hp⟩
        rcases h with rfl | rfl | rfl | rfl | rfl <;> simp only at hp <;> omega
    rw [List.pairwise_map] at this
    exact this
  · intro pre e post hs x h1 h2
    have hb := congrArg (List.map (fun e : Drawing => e.2.2)) hs
    rw [he, List.map_append, List.map_cons] at hb
    have key : ∃ b ∈ pre.map (fun e : Drawing => e.2.2), InBox ⟨x, e.2.2.min.y⟩ b := by
      generalize pre.map (fun e : Drawing => e.2.2) = P at hb
      generalize post.map (fun e : Drawing => e.2.2) = Q at hb
      generalize e.2.2 = B at hb h2
      rcases P with _ | ⟨p1, _ | ⟨p2, _ | ⟨p3, _ | ⟨p4, _ | ⟨p5, _ | ⟨p6, P⟩⟩⟩⟩⟩⟩ <;>
        simp only [List.nil_append, List.cons_append, List.cons.injEq, List.nil_eq, reduceCtorEq, and_false, List.append_eq_nil_iff] at hb
      · obtain ⟨rfl, _⟩ := hb; simp only at h2; omega
      · obtain ⟨rfl, rfl, _⟩ := hb
        exact ⟨⟨⟨1, 1⟩, ⟨1, 2⟩⟩, by simp, by simp only at h2; simp only [InBox]; omega⟩
      · obtain ⟨rfl, rfl, rfl, _⟩ := hb
        simp only at h2
        have : x = 1 ∨ x = 2 := by omega
        rcases this with rfl | rfl
        · exact ⟨⟨⟨1, 1⟩, ⟨1, 2⟩⟩, by simp, by simp [InBox]⟩
        · exact ⟨⟨⟨2, 2⟩, ⟨2, 2⟩⟩, by simp, by simp [InBox]⟩
      · obtain ⟨rfl, rfl, rfl, rfl, _⟩ := hb; simp only at h2; omega
      · obtain ⟨rfl, rfl, rfl, rfl, rfl, _⟩ := hb
        exact ⟨⟨⟨1, 3⟩, ⟨1, 3⟩⟩, by simp, by simp only at h2; simp only [InBox]; omega⟩
      · obtain ⟨rfl, rfl, rfl, rfl, rfl, rfl, _⟩ := hb; simp only at h2; omega
    obtain ⟨b, hb, hin⟩ := key
    obtain ⟨a, ha, rfl⟩ := List.mem_map.mp hb
    exact ⟨a, ha, hin⟩

theorem fragDemo_columns : fragDemo.Columns (some "c") 4 := by
  refine ⟨?_, by decide +kernel, by decide +kernel⟩
  intro i c hi
  have hlt : i < 1 := (List.getElem?_eq_some_iff.mp hi).1
  obtain rfl : i = 0 := by omega
  cases hi
  exact .inr ⟨"2", rfl, isNumber_ascii (by decide) (by decide)⟩

/-- the hypotheses of `C110_formex_unequal_rows` hold of this document, which has four columns and four rows -/
example : ∃ pc : FmxP.Config, fragDemo.Nested pc.ns pc.calsNs 0 (some fragTbl) ∧ fragDemo.Placed pc.ns pc.calsNs 4 ∧ fragDemo.Columns pc.calsNs 4 ∧ fragDemo.Width 4 ∧
    fragDemo.Height 4 ∧ FrameAccepted pc.calsNs fragDemo.corpus := by
  refine ⟨⟨none, some "c", false⟩, fragDemo_nested, fragDemo_placed, fragDemo_columns, ⟨by decide +kernel, by decide +kernel⟩, ⟨by decide +kernel, by decide +kernel⟩, ?_⟩
  intro f hf _
  cases hf; decide

/-- a cell which goes down over two rows -/
def downCell : Node := .elem (qn "CELL") [(qn "COL", "1"), (qn "ROWSPAN", "2")] (some "a") [] none

/-- a title which tells that it starts, and ends, in the second column -/
def secondTitle : Node := .elem (qn "TI.BLK") [(qn "COL.START", "2"), (qn "COL.END", "2")] none [.elem (qn "P") [] (some "Title") [] none] none

/-- a title is not in the column which it tells when a cell of a row above goes down to its line: the columns before it are counted from the first free place -/
theorem C110_title_counterexample : ∃ (pc : FmxP.Config) (corpus : Node),
    corpus = .elem (qn "CORPUS") [] none [.elem (qn "ROW") [] none [downCell, fragB] none, secondTitle] none ∧
    secondTitle.attr (qn "COL.START") = some "2" ∧
    boxesOf (eval (FmxP.parseTable pc 0 none corpus) PState.init) = [(1, 1, 1, 2), (2, 1, 2, 1), (3, 1, 3, 1), (2, 2, 2, 2), (3, 2, 3, 2)] :=
  ⟨⟨none, some "c", false⟩, _, rfl, rfl, by decide +kernel⟩

/-- a note is not below the table when a cell of the last row goes down: it is put beside this cell, and the table becomes wider -/
theorem C110_note_counterexample : ∃ (pc : FmxP.Config) (corpus tbl : Node),
    corpus = .elem (qn "CORPUS") [] none [.elem (qn "ROW") [] none [downCell, fragB] none] none ∧ tbl = .elem (qn "TBL") [] none [fragN, corpus] none ∧
    boxesOf (eval (FmxP.parseTable pc 0 (some tbl) corpus) PState.init) = [(1, 1, 1, 2), (2, 1, 2, 1), (3, 1, 3, 1), (2, 2, 3, 2)] :=
  ⟨⟨none, some "c", false⟩, _, _, rfl, rfl, by decide +kernel⟩

end Benker
