import Verif.Spec.FormexDoc
import Verif.Lemmas.LineFill
import Verif.Lemmas.CalsDoc
import Verif.Lemmas.FormexRoundTrip

/-! Simulation of the Formex parser on a Formex document. -/

namespace Benker
open PyM Cals CalsSpec FmxSpec

variable {pc : FmxP.Config}

/-! ### nodes which are not seen -/

theorem noFmx_unselected {nodes : List Node} (h : NoFmx pc.ns pc.calsNs nodes) : Unselected (FmxP.selected pc) (toksList nodes) := by
  intro t a ht
  unfold FmxP.selected
  rw [decide_eq_false_iff_not]
  intro hm
  obtain ⟨h1, h2⟩ := h t a ht
  rcases List.mem_append.mp hm with hm | hm
  · obtain ⟨n, hn, rfl⟩ := List.mem_map.mp hm
    exact h1 rfl hn
  · rw [List.mem_singleton] at hm
    subst hm
    exact h2 rfl rfl

theorem among_walk {picked all : List Node} (h : Among pc.ns pc.calsNs picked all) (p : Option Node) :
    walkList (FmxP.selected pc) p all = walkList (FmxP.selected pc) p picked := by
  induction h with
  | nil => rfl
  | take n picked all _ ih => rw [walkList, walkList, ih]
  | skip n picked all hn _ ih =>
    have := walkList_unselected _ p _ (noFmx_unselected hn)
    rw [walkList, walkList, List.append_nil] at this
    rw [walkList, this, ih]; rfl

/-! ### numbers -/

theorem toldNumber_int {attr : Option String} {n : Nat} (h : ToldNumber attr 1 n) : pyInt (attr.getD "1") = .ok (n : Int) := by
  rcases h with ⟨h, rfl⟩ | ⟨s, h, hn⟩
  · rw [h]; decide +kernel
  · rw [h]; exact pyInt_number hn

theorem docCellSpan_ok {e : Node} {w h : Int} (hw : CellColumns (e.attr (pc.f "COLSPAN")) (e.attr (pc.q "namest")) (e.attr (pc.q "nameend")) w)
    (hh : CellRows (e.attr (pc.f "ROWSPAN")) (e.attr (pc.q "morerows")) h) : FmxP.cellSpan pc e = .ok (w, h) := by
  obtain ⟨n, h1, h2⟩ := hw
  obtain ⟨m, h3, h4⟩ := hh
  have ne : ∀ s k, FirstNumber s k → s ≠ "" := by
    rintro s k ⟨pre, ds, post, e, _, hds, _⟩ rfl
    have e := congrArg List.length e
    simp only [String.toList_empty, List.length_nil, List.length_append] at e
    exact hds (List.eq_nil_of_length_eq_zero (by omega))
  have ne' : ∀ s k, IsNumber s k → s ≠ "" := fun _ _ h => isNumber_ne h
  unfold FmxP.cellSpan
  rw [toldNumber_int h1, toldNumber_int h3]
  rcases h2 with ⟨s, t, a, b, e1, e2, e3, e4, rfl⟩ | ⟨e1, rfl⟩ <;> rcases h4 with ⟨u, k, e5, e6, rfl⟩ | ⟨e5, rfl⟩
  · simp only [e1, e2, e5, firstInt_number e3, firstInt_number e4, pyInt_number e6, ne _ _ e3, ne _ _ e4, ne' _ _ e6, ne_eq, not_false_eq_true, and_self, if_true,
      if_false, bind, Except.bind, pure, Except.pure]
  · simp only [e1, e2, e5, firstInt_number e3, firstInt_number e4, ne _ _ e3, ne _ _ e4, ne_eq, not_false_eq_true, and_self, if_true,
      bind, Except.bind, pure, Except.pure]
  · rcases e1 with e1 | e1 <;> cases e2 : e.attr (pc.q "namest") <;> cases e3 : e.attr (pc.q "nameend") <;>
      simp only [e2, e3, reduceCtorEq] at e1 <;>
      simp only [e5, pyInt_number e6, ne' _ _ e6, if_false, bind, Except.bind, pure, Except.pure]
  · rcases e1 with e1 | e1 <;> cases e2 : e.attr (pc.q "namest") <;> cases e3 : e.attr (pc.q "nameend") <;>
      simp only [e2, e3, reduceCtorEq] at e1 <;>
      simp only [e5, bind, Except.bind, pure, Except.pure]

/-! ### the cells which the lines must become -/

/-- what is read in a place of a line -/
def PlaceRead (pc : FmxP.Config) (l : DocLine) : Option Node → Cell Content → Prop
  | none, d => d.content = none ∧ d.styles = [] ∧ d.nature = some (l.kind pc.ns)
  | some n, d => match l.sort with
    | .row => d.content = some (FmxP.nodeContent pc n) ∧ d.styles = FmxP.cellStyles pc (some l.node) n ∧
        d.nature = FmxP.cellNature (n.attr (pc.f "TYPE")) (some (l.kind pc.ns))
    | .note => d.content = some (if pc.embedGrNotes then Content.seq [some (.node n)] else FmxP.nodeContent pc n) ∧ d.styles = FmxP.calsRowStyles pc n ∧
        d.nature = some (l.kind pc.ns)
    | _ => d.content = some (FmxP.nodeContent pc n) ∧ d.styles = [] ∧ d.nature = some (l.kind pc.ns)

/-- the cell read in a place -/
structure LineRead (pc : FmxP.Config) (c : Cell (DocLine × Option Node)) (d : Cell Content) : Prop where
  box : d.box = c.box
  place : ∃ l n, c.content = some (l, n) ∧ PlaceRead pc l n d

/-- the cell of a place -/
def lineCell (l : DocLine) (e : Option Node × Box) : Cell (DocLine × Option Node) := ⟨some (l, e.1), [], none, e.2⟩

/-- the cells of lines -/
def lineCells (ls : List DocLine) : List (Cell (DocLine × Option Node)) := ls.flatMap (fun l => l.drawn.map (lineCell l))

/-- the kinds of the lines -/
def lineKinds (ns : Option String) (ls : List DocLine) (i : Nat) : Option String := ls[i]?.map (fun l => l.kind ns)

/-- looks of a line -/
def LineOK (pc : FmxP.Config) (ls : List DocLine) (i : Nat) (nature : Option String) (st : Styles) : Prop :=
  ∃ l, ls[i]? = some l ∧ nature = some (l.kind pc.ns) ∧
    (l.sort = .row → st = FmxP.rowStyles pc l.level l.node) ∧ (l.sort = .title ∨ l.sort = .subtitle → st = FmxP.titleStyles pc l.sort.tag l.level l.node)

theorem rowNature_kind (type : Option String) : FmxP.rowNature type = (toldKind type).getD "body" := by
  cases type with
  | none => rfl
  | some t =>
    unfold FmxP.rowNature toldKind
    rfl

theorem cellNature_kind (type : Option String) (k : String) : FmxP.cellNature type (some k) = some ((toldKind type).getD k) := by
  cases type with
  | none => rfl
  | some t =>
    unfold FmxP.cellNature toldKind
    simp only [Dict.get?]
    have : kindOfType = FmxP.typeMap := rfl
    rw [this]
    cases List.find? (fun kv => decide (kv.1 = t)) FmxP.typeMap <;> rfl

/-! ### one cell -/

section
variable {G : Goal} {y : Nat} {nat : Nat → Option String} {done rest : List (Cell (DocLine × Option Node))}

theorem runs_insertInRow {c : Cell (DocLine × Option Node)} {content : Option Content} {st : Option Styles} {nature : Option String}
    (hT : Tiles G.w G.h (done ++ c :: rest)) (hy : c.min.y = y) (hc : ∀ m, LineRead pc c ⟨content, st.getD [], nature.or m, c.box⟩) :
    Runs (AtRow nat G (LineRead pc) done y) (AtRow nat G (LineRead pc) (done ++ [c]) y) (FmxP.insertInRow content st nature c.width c.height) := by
  intro s hs
  obtain ⟨colPos, rowPos, row, table⟩ := s
  obtain ⟨t, h1, h2, h3, h4, h5⟩ := hs
  simp only at h1 h2 h3 h4
  subst h1 h3
  obtain ⟨t', r1, r2⟩ := h5.insert (fun _ _ h => h.box) hT hy content st nature hc
  refine ⟨⟨colPos, rowPos, some ((y : Int), nat (y - 1)), some t'⟩, ?_, t', rfl, h2, rfl, h4, r2⟩
  unfold FmxP.insertInRow
  simp only [bind_run, theRow_mk, onTable_mk, r1]

/-- what is asked of a cell -/
structure CellGood (pc : FmxP.Config) (c : DocCell) : Prop where
  tag : c.node.tag? = some (pc.f "CELL")
  plain : NoFmx pc.ns pc.calsNs c.node.children
  cols : CellColumns (c.node.attr (pc.f "COLSPAN")) (c.node.attr (pc.q "namest")) (c.node.attr (pc.q "nameend")) (c.box.max.x - c.box.min.x + 1)
  rows : CellRows (c.node.attr (pc.f "ROWSPAN")) (c.node.attr (pc.q "morerows")) (c.box.max.y - c.box.min.y + 1)

theorem runs_lineCell {l : DocLine} (hl : l.sort = .row) {c : DocCell} (hg : CellGood pc c) {b : Nat}
    (hT : Tiles G.w G.h (done ++ lineCell l (some c.node, c.box) :: rest)) (hy : c.box.min.y = y) (hnat : nat (y - 1) = some (l.kind pc.ns)) :
    Runs (AtRow nat G (LineRead pc) done y) (AtRow nat G (LineRead pc) (done ++ [lineCell l (some c.node, c.box)]) y)
      (FmxP.loop pc 1 b (walk (FmxP.selected pc) (some l.node) c.node)) := by
  refine FmxP.runs_elem hg.tag (FmxP.selected_f _ (by simp)) (by simp [FmxP.Config.f]) (by simp [FmxP.Config.f])
    (Q := AtRow nat G (LineRead pc) (done ++ [lineCell l (some c.node, c.box)]) y)
    (S := AtRow nat G (LineRead pc) (done ++ [lineCell l (some c.node, c.box)]) y) ?_ ?_ ?_
  · have e0 : FmxP.onStart pc b (some l.node) c.node = (do PState.nextCol; FmxP.parseCell pc (some l.node) c.node) := by
      simp [FmxP.onStart, hg.tag]
    have hspan := docCellSpan_ok hg.cols hg.rows
    rw [e0]
    refine runs_bind (Q := AtRow nat G (LineRead pc) done y) ?_ ?_
    · rintro s ⟨t, h1, h2, h3, h4, h5⟩
      exact ⟨_, rfl, t, h1, h2, h3, by simp only; omega, h5⟩
    · intro s hs
      obtain ⟨t, h1, h2, h3, h4, h5⟩ := id hs
      obtain ⟨s', r1, r2⟩ := runs_insertInRow (pc := pc) (nat := nat) (content := some (FmxP.nodeContent pc c.node)) (st := some (FmxP.cellStyles pc (some l.node) c.node))
        (nature := FmxP.cellNature (c.node.attr (pc.f "TYPE")) (some (l.kind pc.ns))) hT hy (by
          intro m
          refine ⟨rfl, l, some c.node, rfl, ?_⟩
          simp only [PlaceRead, hl, Option.getD_some, cellNature_kind]
          exact ⟨trivial, trivial, rfl⟩) s hs
      refine ⟨s', ?_, r2⟩
      rw [← r1]
      obtain ⟨colPos, rowPos, row, table⟩ := s
      simp only at h3
      subst h3
      unfold FmxP.parseCell
      simp only [bind_run, lift_run, hspan, theRow_mk, hnat]
      rfl
  · rw [walkList_unselected _ _ _ (noFmx_unselected hg.plain)]
    exact runs_pure
  · have : FmxP.onEnd pc (some l.node) c.node = pure () := by
      simp [FmxP.onEnd, hg.tag, FmxP.Config.f]
    rw [this]; exact runs_pure

theorem runs_lineCells {l : DocLine} (hl : l.sort = .row) {b : Nat} (hnat : nat (y - 1) = some (l.kind pc.ns)) :
    ∀ (cs : List DocCell) (done : List (Cell (DocLine × Option Node))), (∀ c ∈ cs, CellGood pc c) →
    Tiles G.w G.h (done ++ cs.map (fun c => lineCell l (some c.node, c.box)) ++ rest) → (∀ c ∈ cs, c.box.min.y = y) →
    Runs (AtRow nat G (LineRead pc) done y) (AtRow nat G (LineRead pc) (done ++ cs.map (fun c => lineCell l (some c.node, c.box))) y)
      (FmxP.loop pc 1 b (walkList (FmxP.selected pc) (some l.node) (cs.map (·.node)))) := by
  intro cs
  induction cs with
  | nil => intro done _ _ _; rw [List.map_nil, List.append_nil]; exact runs_pure
  | cons c cs ih =>
    intro done hg hT hy
    refine FmxP.runs_loop_cons (runs_lineCell hl (hg c (by simp)) (rest := cs.map (fun c => lineCell l (some c.node, c.box)) ++ rest) (by simpa using hT)
      (hy c (by simp)) hnat) ?_
    have := ih (done ++ [lineCell l (some c.node, c.box)]) (fun e he => hg e (by simp [he])) (by simpa using hT) (fun e he => hy e (by simp [he]))
    simpa using this

/-- the places left of a title -/
theorem runs_places {l : DocLine} (hk : l.kind pc.ns = "body") : ∀ (bs : List Box) (ks : List Int) (done : List (Cell (DocLine × Option Node))), ks.length = bs.length →
    Tiles G.w G.h (done ++ bs.map (fun b => lineCell l (none, b)) ++ rest) → (∀ b ∈ bs, b.min.y = y ∧ b.max = b.min) →
    Runs (AtRow nat G (LineRead pc) done y) (AtRow nat G (LineRead pc) (done ++ bs.map (fun b => lineCell l (none, b))) y)
      (forEach (fun _ => FmxP.insertInRow none none (some "body") 1 1) ks) := by
  intro bs
  induction bs with
  | nil =>
    intro ks done hlen _ _
    rw [List.map_nil, List.append_nil, List.eq_nil_of_length_eq_zero hlen]
    exact runs_pure
  | cons b bs ih =>
    intro ks done hlen hT hy
    cases ks with
    | nil => cases hlen
    | cons k ks =>
      obtain ⟨h1, h2⟩ := hy b (by simp)
      have := runs_insertInRow (pc := pc) (nat := nat) (y := y) (c := lineCell l (none, b)) (done := done) (rest := bs.map (fun b => lineCell l (none, b)) ++ rest)
        (content := none) (st := none) (nature := some "body") (by simpa using hT) h1 (by
          intro m
          exact ⟨rfl, l, none, rfl, rfl, rfl, by rw [hk]; rfl⟩)
      have e1 : (lineCell l (none, b)).width = 1 := by simp only [lineCell, Cell.width, Box.width, h2]; omega
      have e2 : (lineCell l (none, b)).height = 1 := by simp only [lineCell, Cell.height, Box.height, h2]; omega
      rw [e1, e2] at this
      refine runs_bind this ?_
      have := ih ks (done ++ [lineCell l (none, b)]) (by simpa using hlen) (by simpa using hT) (fun e he => hy e (by simp [he]))
      simpa using this
end

/-! ### lines -/

/-- what is asked of a line which is not a note -/
structure LineGood (pc : FmxP.Config) (l : DocLine) : Prop where
  sort : l.sort ≠ .note
  tag : l.node.tag? = some (pc.f l.sort.tag)
  row : l.sort = .row → l.before = [] ∧ Among pc.ns pc.calsNs (l.cells.map (·.node)) l.node.children ∧ ∀ c ∈ l.cells, CellGood pc c
  title : l.sort ≠ .row → NoFmx pc.ns pc.calsNs l.node.children ∧ ∃ c a b, l.cells = [c] ∧ c.node = l.node ∧
    ToldNumber (l.node.attr (pc.f "COL.START")) 1 a ∧ ToldNumber (l.node.attr (pc.f "COL.END")) 1 b ∧
    c.box.min.x = a ∧ c.box.max.x = b ∧ c.box.max.y = c.box.min.y ∧ l.before.length + 1 = a
  places : ∀ b ∈ l.before ++ l.after, b.max = b.min

/-- the layout which the parser rebuilds -/
structure LinePlan (pc : FmxP.Config) (w h : Nat) (known : Nat) (ls : List DocLine) : Prop where
  tiles : Tiles w h (lineCells ls)
  start : ∀ (i : Nat) (l : DocLine), ls[i]? = some l → ∀ e ∈ l.drawn, e.2.min.y = (i : Int) + 1
  height : ls.length = h
  width : 1 ≤ w
  unfinished : ∀ (i : Nat) (l : DocLine), ls[i]? = some l → l.after ≠ [] → known = w ∨ ∃ j m c, j < i ∧ ls[j]? = some m ∧ c ∈ m.cells ∧ c.box.max.x = w

theorem lineCells_snoc (pre : List DocLine) (l : DocLine) : lineCells (pre ++ [l]) = lineCells pre ++ l.drawn.map (lineCell l) := by
  simp [lineCells]

theorem drawn_cells (l : DocLine) : l.drawn.map (lineCell l) = l.before.map (fun b => lineCell l (none, b)) ++
    l.cells.map (fun c => lineCell l (some c.node, c.box)) ++ l.after.map (fun b => lineCell l (none, b)) := by
  simp [DocLine.drawn, Function.comp_def]

section
variable {G : Goal} {ls pre post : List DocLine} {l : DocLine}

theorem below (hls : ls = pre ++ l :: post) (hp : LinePlan pc G.w G.h G.known ls) : ∀ c ∈ lineCells post, (pre.length : Int) + 1 < c.min.y := by
  intro c hc
  unfold lineCells at hc
  obtain ⟨m, hm, hc⟩ := List.mem_flatMap.mp hc
  obtain ⟨e, he, rfl⟩ := List.mem_map.mp hc
  obtain ⟨i, hi, rfl⟩ := List.getElem_of_mem hm
  have := hp.start (pre.length + 1 + i) post[i] (by
    rw [hls, List.getElem?_append_right (by omega)]
    simp [show pre.length + 1 + i - pre.length = i + 1 by omega]) e he
  simp only [Cell.min, lineCell]
  rw [this]; push_cast; omega

theorem line_tiles (hls : ls = pre ++ l :: post) (hp : LinePlan pc G.w G.h G.known ls) :
    Tiles G.w G.h (lineCells pre ++ (l.before.map (fun b => lineCell l (none, b)) ++
    l.cells.map (fun c => lineCell l (some c.node, c.box)) ++ l.after.map (fun b => lineCell l (none, b))) ++ lineCells post) := by
  have := hp.tiles
  rw [hls] at this
  rw [← drawn_cells]
  simpa [lineCells] using this

/-- the end of a line -/
theorem runs_lineEnd (hls : ls = pre ++ l :: post) (hp : LinePlan pc G.w G.h G.known ls) (hpl : ∀ b ∈ l.after, b.max = b.min) :
    Runs (AtRow (lineKinds pc.ns ls) G (LineRead pc) (lineCells pre ++ (l.before.map (fun b => lineCell l (none, b)) ++
      l.cells.map (fun c => lineCell l (some c.node, c.box)))) (pre.length + 1))
      (AtGap G (LineRead pc) (lineCells (pre ++ [l])) (pre.length + 1)) CalsP.endRow := by
  have hget : ls[pre.length]? = some l := by rw [hls]; simp
  have hlt : pre.length < ls.length := by rw [hls]; simp
  have hk : lineKinds pc.ns ls pre.length = some (l.kind pc.ns) := by unfold lineKinds; rw [hget]; rfl
  have := runs_endLine (nat := lineKinds pc.ns ls) (G := G) (R := LineRead pc) (fun _ _ h => h.box) (y := pre.length)
    (done := lineCells pre ++ (l.before.map (fun b => lineCell l (none, b)) ++ l.cells.map (fun c => lineCell l (some c.node, c.box))))
    (fill := l.after.map (fun b => lineCell l (none, b))) (rest := lineCells post) (by
      have := line_tiles hls hp
      simpa [List.append_assoc] using this) (below hls hp) (by have := hp.height; omega) hp.width (by
      intro c hc
      obtain ⟨b, hb, rfl⟩ := List.mem_map.mp hc
      have := hp.start _ _ hget (none, b) (by unfold DocLine.drawn; simp [hb])
      exact ⟨this, hpl b hb⟩) (by
      intro hne
      rcases hp.unfinished _ _ hget (by intro e; rw [e] at hne; exact hne rfl) with h | ⟨j, m, c, hj, hm, hc, hx⟩
      · exact .inl h
      · refine .inr ⟨lineCell m (some c.node, c.box), ?_, by simp only [lineCell, Cell.max]; omega⟩
        refine List.mem_append_left _ ?_
        unfold lineCells
        refine List.mem_flatMap.mpr ⟨m, ?_, ?_⟩
        · rw [hls, List.getElem?_append_left hj] at hm
          exact List.mem_of_getElem? hm
        · rw [drawn_cells]
          refine List.mem_append_left _ (List.mem_append_right _ (List.mem_map.mpr ⟨c, hc, rfl⟩))) (by
      intro c hc
      obtain ⟨b, hb, rfl⟩ := List.mem_map.mp hc
      exact ⟨rfl, l, none, rfl, rfl, rfl, hk⟩)
  rw [lineCells_snoc, drawn_cells]
  simpa [List.append_assoc] using this

/-- the beginning of a line -/
theorem runs_lineStart (hls : ls = pre ++ l :: post) (hG : G.rowOK = LineOK pc ls) (hp : LinePlan pc G.w G.h G.known ls) (st : Option Styles)
    (hst : (l.sort = .row → st = some (FmxP.rowStyles pc l.level l.node)) ∧ (l.sort = .title ∨ l.sort = .subtitle → st = some (FmxP.titleStyles pc l.sort.tag l.level l.node))) :
    Runs (AtGap G (LineRead pc) (lineCells pre) pre.length) (AtRow (lineKinds pc.ns ls) G (LineRead pc) (lineCells pre) (pre.length + 1))
      (do PState.nextRow; FmxP.startRow (l.kind pc.ns) st) := by
  have hget : ls[pre.length]? = some l := by rw [hls]; simp
  have hlt : pre.length < ls.length := by rw [hls]; simp
  have hk : lineKinds pc.ns ls pre.length = some (l.kind pc.ns) := by unfold lineKinds; rw [hget]; rfl
  intro s hs
  obtain ⟨colPos, rowPos, srow, table⟩ := s
  obtain ⟨t, e1, e2, e3⟩ := hs
  simp only at e1 e2
  subst e1 e2
  obtain ⟨t', r1, r2⟩ := e3.startRow (by have := hp.height; omega) (fun v => { v with nature := some (l.kind pc.ns), styles := st.getD v.styles })
    (fun v => ⟨rfl, rfl, rfl⟩) (fun v => by
      rw [hG]
      refine ⟨l, hget, rfl, ?_, ?_⟩
      · intro h; rw [hst.1 h]; rfl
      · intro h; rw [hst.2 h]; rfl)
  refine ⟨⟨0, (pre.length : Int) + 1, some ((pre.length : Int) + 1, some (l.kind pc.ns)), some t'⟩, ?_, t', rfl, by simp, by simp [hk], by simp, r2⟩
  unfold PState.nextRow FmxP.startRow
  simp only [bind_run, modify_run, get_run, onTable_mk, r1]

theorem runs_docLine (hls : ls = pre ++ l :: post) (hG : G.rowOK = LineOK pc ls) (hp : LinePlan pc G.w G.h G.known ls) (hg : LineGood pc l) (p : Option Node) :
    Runs (AtGap G (LineRead pc) (lineCells pre) pre.length) (AtGap G (LineRead pc) (lineCells (pre ++ [l])) (pre.length + 1))
      (FmxP.loop pc 1 l.level (walk (FmxP.selected pc) p l.node)) := by
  have hget : ls[pre.length]? = some l := by rw [hls]; simp
  have hk : lineKinds pc.ns ls pre.length = some (l.kind pc.ns) := by unfold lineKinds; rw [hget]; rfl
  have hT := line_tiles hls hp
  have hend := runs_lineEnd hls hp (fun b hb => hg.places b (by simp [hb]))
  have hys : ∀ e ∈ l.drawn, e.2.min.y = ((pre.length + 1 : Nat) : Int) := fun e he => by rw [hp.start _ _ hget e he]; simp
  have htag := hg.tag
  have hsel : FmxP.selected pc (pc.f l.sort.tag) = true := FmxP.selected_f _ (by cases h : l.sort <;> simp [LineSort.tag]; exact hg.sort h)
  have hc : pc.f l.sort.tag ≠ pc.f "CORPUS" := by cases h : l.sort <;> simp [LineSort.tag, FmxP.Config.f]
  have hb : pc.f l.sort.tag ≠ pc.f "BLK" := by cases h : l.sort <;> simp [LineSort.tag, FmxP.Config.f]
  have e1 : FmxP.onEnd pc p l.node = CalsP.endRow := by
    unfold FmxP.onEnd
    rw [htag]
    cases h : l.sort <;> simp [LineSort.tag, FmxP.Config.f]
    exact absurd h hg.sort
  by_cases hrow : l.sort = .row
  · obtain ⟨hbef, hin, hcs⟩ := hg.row hrow
    have e0 : FmxP.onStart pc l.level p l.node = (do PState.nextRow; FmxP.startRow (l.kind pc.ns) (some (FmxP.rowStyles pc l.level l.node))) := by
      have : l.node.tag? = some (pc.f "ROW") := by rw [htag, hrow]; rfl
      have hkr : l.kind pc.ns = FmxP.rowNature (l.node.attr (pc.f "TYPE")) := by
        rw [rowNature_kind]; unfold DocLine.kind; rw [hrow]; rfl
      rw [hkr]
      simp [FmxP.onStart, this, FmxP.Config.f, FmxP.parseRow]
    refine FmxP.runs_elem htag hsel hc hb (Q := AtRow (lineKinds pc.ns ls) G (LineRead pc) (lineCells pre) (pre.length + 1)) ?_ ?_ (by rw [e1]; exact hend)
    · rw [e0]
      exact runs_lineStart hls hG hp _ ⟨fun _ => rfl, fun h => by rw [hrow] at h; simp at h⟩
    · rw [among_walk hin, hbef, List.map_nil, List.nil_append]
      rw [hbef, List.map_nil, List.nil_append] at hT
      exact runs_lineCells hrow (by simpa using hk) l.cells (lineCells pre) hcs (rest := l.after.map (fun b => lineCell l (none, b)) ++ lineCells post)
        (by simpa [List.append_assoc] using hT) (fun c hc => hys (some c.node, c.box) (by
          unfold DocLine.drawn; exact List.mem_append_left _ (List.mem_append_right _ (List.mem_map.mpr ⟨c, hc, rfl⟩))))
  · obtain ⟨hno, c, a, b, hcells, hnode, hs, he, hx1, hx2, hy1, hlen⟩ := hg.title hrow
    have hts : l.sort = .title ∨ l.sort = .subtitle := by
      cases h : l.sort with
      | row => exact absurd h hrow
      | note => exact absurd h hg.sort
      | title => exact .inl rfl
      | subtitle => exact .inr rfl
    have hkb : l.kind pc.ns = "body" := by unfold DocLine.kind; rcases hts with h | h <;> rw [h]
    have hcm : (some c.node, c.box) ∈ l.drawn := by unfold DocLine.drawn; rw [hcells]; simp
    have e0 : FmxP.onStart pc l.level p l.node = (do PState.nextRow; FmxP.titleRow pc (FmxP.titleStyles pc l.sort.tag l.level l.node) l.node) := by
      unfold FmxP.onStart
      rw [htag]
      rcases hts with h | h <;> rw [h] <;> simp [LineSort.tag, FmxP.Config.f, FmxP.parseTitle]
    refine FmxP.runs_elem htag hsel hc hb (Q := AtRow (lineKinds pc.ns ls) G (LineRead pc) (lineCells pre ++ (l.before.map (fun b => lineCell l (none, b)) ++
      l.cells.map (fun c => lineCell l (some c.node, c.box)))) (pre.length + 1)) ?_ (by rw [walkList_unselected _ _ _ (noFmx_unselected hno)]; exact runs_pure) (by rw [e1]; exact hend)
    rw [e0]
    have hstart := runs_lineStart hls hG hp (some (FmxP.titleStyles pc l.sort.tag l.level l.node)) ⟨fun h => absurd h hrow, fun _ => rfl⟩
    rw [hkb] at hstart
    have hplaces := runs_places (G := G) (y := pre.length + 1) (nat := lineKinds pc.ns ls) (pc := pc) hkb l.before (pyRange 1 (a : Int)) (lineCells pre)
      (rest := l.cells.map (fun c => lineCell l (some c.node, c.box)) ++ l.after.map (fun b => lineCell l (none, b)) ++ lineCells post)
      (by rw [length_pyRange]; omega) (by simpa [List.append_assoc] using hT)
      (fun b hb => ⟨hys (none, b) (by unfold DocLine.drawn; simp [hb]), hg.places b (by simp [hb])⟩)
    have htitle := runs_insertInRow (pc := pc) (nat := lineKinds pc.ns ls) (G := G) (y := pre.length + 1) (c := lineCell l (some c.node, c.box))
      (done := lineCells pre ++ l.before.map (fun b => lineCell l (none, b))) (rest := l.after.map (fun b => lineCell l (none, b)) ++ lineCells post)
      (content := some (FmxP.nodeContent pc c.node)) (st := none) (nature := some "body") (by
        rw [hcells] at hT
        simpa [List.append_assoc] using hT) (hys _ hcm) (by
        intro m
        refine ⟨rfl, l, some c.node, rfl, ?_⟩
        unfold PlaceRead
        rcases hts with h | h <;> rw [h] <;> exact ⟨rfl, rfl, by rw [hkb]; rfl⟩)
    have ew : (lineCell l (some c.node, c.box)).width = (b : Int) - a + 1 := by simp only [lineCell, Cell.width, Box.width]; omega
    have eh : (lineCell l (some c.node, c.box)).height = 1 := by simp only [lineCell, Cell.height, Box.height]; omega
    rw [ew, eh, hnode] at htitle
    have hall := runs_bind hstart (k := fun _ => forEach (fun _ => FmxP.insertInRow none none (some "body") 1 1) (pyRange 1 (a : Int)) >>= fun _ =>
      FmxP.insertInRow (some (FmxP.nodeContent pc l.node)) none (some "body") ((b : Int) - a + 1) 1) (runs_bind hplaces htitle)
    intro s hs'
    obtain ⟨s', r1, r2⟩ := hall s hs'
    refine ⟨s', ?_, ?_⟩
    · rw [← r1]
      unfold FmxP.titleRow
      have i1 := toldNumber_int hs
      have i2 := toldNumber_int he
      simp only [bind_run, lift_run, i1, i2]
      cases PState.nextRow s with
      | mk r s1 =>
        cases r with
        | error e => rfl
        | ok u =>
          cases FmxP.startRow "body" (some (FmxP.titleStyles pc l.sort.tag l.level l.node)) s1 with
          | mk r s2 => cases r <;> rfl
    · rw [hcells, List.map_cons, List.map_nil, hnode]
      simpa [List.append_assoc] using r2

end

/-! ### blocks -/

/-- the events of a block: those of its children, with one more block around them -/
theorem runs_block {P Q : PState → Prop} {p : Option Node} {n : Node} {b : Nat} (hn : n.tag? = some (pc.f "BLK"))
    (h : Runs P Q (FmxP.loop pc 1 (b + 1) (walkList (FmxP.selected pc) (some n) n.children))) : Runs P Q (FmxP.loop pc 1 b (walk (FmxP.selected pc) p n)) := by
  have hd : ∀ x, FmxP.newDepth pc 1 ⟨x, n, p⟩ = 1 := by
    intro x
    have : pc.f "BLK" ≠ pc.f "CORPUS" := by simp [FmxP.Config.f]
    simp only [FmxP.newDepth, hn, Option.some.injEq, if_neg this]
  have hda : FmxP.depthAfter pc 1 [⟨true, n, p⟩] = 1 := hd true
  have hka : FmxP.blkAfter pc b [⟨true, n, p⟩] = b + 1 := by
    simp [FmxP.blkAfter, FmxP.newBlk, hn]
  have hst : FmxP.onEvent pc b ⟨true, n, p⟩ = pure () := by
    simp [FmxP.onEvent, FmxP.onStart, hn, FmxP.Config.f]
  have hen : FmxP.onEvent pc (b + 1) ⟨false, n, p⟩ = pure () := by
    simp [FmxP.onEvent, FmxP.onEnd, hn, FmxP.Config.f]
  rw [FmxP.walk_elem p hn (FmxP.selected_f _ (by simp)), FmxP.loop_append, hda, hka, FmxP.loop_one _ _ (hd true), FmxP.loop_append,
    (FmxP.after_walkList _ _ 1 (b + 1) _).1, (FmxP.after_walkList _ _ 1 (b + 1) _).2, FmxP.loop_one _ _ (hd false), hst, hen]
  exact runs_bind runs_pure (runs_bind h runs_pure)

theorem runs_docLines {G : Goal} {ls : List DocLine} (hG : G.rowOK = LineOK pc ls) (hp : LinePlan pc G.w G.h G.known ls) {level : Nat} {g : List DocLine} {nodes : List Node}
    (h : Lines pc.ns pc.calsNs level g nodes) : ∀ (pre post : List DocLine) (p : Option Node), ls = pre ++ g ++ post → (∀ l ∈ g, LineGood pc l) →
    Runs (AtGap G (LineRead pc) (lineCells pre) pre.length) (AtGap G (LineRead pc) (lineCells (pre ++ g)) (pre ++ g).length)
      (FmxP.loop pc 1 level (walkList (FmxP.selected pc) p nodes)) := by
  induction h with
  | nil level => intro pre post p _ _; rw [List.append_nil]; exact runs_pure
  | skip level n g all hn _ ih =>
    intro pre post p hls hg
    have := walkList_unselected _ p _ (noFmx_unselected hn)
    rw [walkList, walkList, List.append_nil] at this
    rw [walkList, this, List.nil_append]
    exact ih pre post p hls hg
  | line level l g all hl _ ih =>
    intro pre post p hls hg
    subst hl
    refine FmxP.runs_loop_cons (Q := AtGap G (LineRead pc) (lineCells (pre ++ [l])) (pre ++ [l]).length) ?_ ?_
    · have := runs_docLine (post := g ++ post) (by simpa using hls) hG hp (hg l (by simp)) p
      simpa using this
    · have := ih (pre ++ [l]) post p (by simpa using hls) (fun l' hl' => hg l' (by simp [hl']))
      simpa using this
  | block level n inside g all hn _ _ ih1 ih2 =>
    intro pre post p hls hg
    refine FmxP.runs_loop_cons (runs_block hn (ih1 pre (g ++ post) (some n) (by simpa using hls) (fun l hl => hg l (by simp [hl])))) ?_
    have := ih2 (pre ++ inside) post p (by simpa using hls) (fun l hl => hg l (by simp [hl]))
    simpa using this

/-! ### notes -/

/-- what is asked of a note -/
structure NoteGood (w : Nat) (l : DocLine) : Prop where
  sort : l.sort = .note
  before : l.before = []
  after : l.after = []
  cell : ∃ c, l.cells = [c] ∧ c.node = l.node ∧ c.box.min.x = 1 ∧ c.box.max.x = w ∧ c.box.max.y = c.box.min.y

theorem boundingBox_width {G : Goal} {R : Cell (DocLine × Option Node) → Cell Content → Prop} (hR : ∀ c d, R c d → d.box = c.box) {y y' : Nat}
    {done rest : List (Cell (DocLine × Option Node))} {t : Table Content} (hT : Tiles G.w G.h (done ++ rest)) (ht : Refill G R done y' t) (hy : 1 ≤ y ∧ y ≤ G.h)
    (hw : 1 ≤ G.w) (hrest : ∀ c ∈ rest, (y : Int) < c.min.y) : ∃ b, t.boundingBox = .ok (some b) ∧ b.width = G.w := by
  have hcov : ∀ p : Coord, 1 ≤ p.x → p.x ≤ G.w → 1 ≤ p.y → p.y ≤ y → Covered t.grid.cells p := by
    intro p h1 h2 h3 h4
    rw [covered_all₂ hR ht.cells]
    obtain ⟨c, hc, hin⟩ := hT.full p h1 h2 h3 (by omega)
    rcases List.mem_append.mp hc with hc | hc
    · exact ⟨c, hc, hin⟩
    · have := hrest c hc
      simp only [InBox, Cell.min] at hin this
      omega
  obtain ⟨c1, hc1, hp1⟩ := hcov ⟨1, 1⟩ (by simp) (by simp only; omega) (by simp) (by simp only; omega)
  obtain ⟨c2, hc2, hp2⟩ := hcov ⟨G.w, 1⟩ (by simp only; omega) (by simp) (by simp) (by simp only; omega)
  rcases boundingBox_inv t.grid ht.inv.grid with ⟨h1, _⟩ | ⟨b, _, h2, hv, hin, hleast⟩
  · rw [h1] at hc1; cases hc1
  · refine ⟨b, h2, ?_⟩
    have hb := hleast ⟨⟨1, 1⟩, ⟨G.w, G.h⟩⟩ (by
      intro c hc
      have hvc := ht.inv.grid.valid c hc
      rw [within_iff hvc]
      obtain ⟨c', hc', hr⟩ := ht.cells.mem_right hc
      have := hT.inside c' (by simp [hc'])
      unfold Box.Valid at hvc
      simp only [Cell.max, InBox, ← hR _ _ hr] at *; omega)
    rw [within_iff hv] at hb
    have i1 := hin c1 hc1
    have i2 := hin c2 hc2
    rw [within_iff (ht.inv.grid.valid c1 hc1)] at i1
    rw [within_iff (ht.inv.grid.valid c2 hc2)] at i2
    simp only [InBox] at hb i1 i2 hp1 hp2
    unfold Box.width
    omega

theorem runs_docNote {G : Goal} {ls pre post : List DocLine} {l : DocLine} (hls : ls = pre ++ l :: post) (hpre : pre ≠ []) (hG : G.rowOK = LineOK pc ls)
    (hp : LinePlan pc G.w G.h G.known ls) (hg : NoteGood G.w l) :
    Runs (AtGap G (LineRead pc) (lineCells pre) pre.length) (AtGap G (LineRead pc) (lineCells (pre ++ [l])) (pre.length + 1))
      (do PState.nextRow; FmxP.parseNotes pc l.node) := by
  have hget : ls[pre.length]? = some l := by rw [hls]; simp
  have hlt : pre.length < ls.length := by rw [hls]; simp
  have hT := line_tiles hls hp
  obtain ⟨c, hcells, hnode, hx1, hx2, hy1⟩ := hg.cell
  have hkf : l.kind pc.ns = "footer" := by unfold DocLine.kind; rw [hg.sort]
  have hstart := runs_lineStart hls hG hp none ⟨fun h => (by rw [hg.sort] at h; cases h), fun h => (by rw [hg.sort] at h; simp at h)⟩
  have hcm : (some c.node, c.box) ∈ l.drawn := by unfold DocLine.drawn; rw [hcells]; simp
  have hyc : c.box.min.y = ((pre.length + 1 : Nat) : Int) := by rw [hp.start _ _ hget _ hcm]; simp
  rw [hkf] at hstart
  rw [hg.before, hg.after, hcells] at hT
  simp only [List.map_nil, List.nil_append, List.map_cons, List.append_nil] at hT
  intro s hs
  obtain ⟨s1, r1, q1⟩ := hstart s hs
  obtain ⟨t, h1, h2, h3, h4, h5⟩ := id q1
  have hle := hp.height
  obtain ⟨b, hb, hbw⟩ := boundingBox_width (y := pre.length) (fun _ _ h => h.box) (done := lineCells pre) (rest := lineCell l (some c.node, c.box) :: lineCells post)
    (by simpa [List.append_assoc] using hT) h5 ⟨by cases pre with | nil => exact absurd rfl hpre | cons a l => simp, by omega⟩ hp.width (by
      intro d hd
      rcases List.mem_cons.mp hd with rfl | hd
      · simp only [lineCell, Cell.min]; rw [hyc]; push_cast; omega
      · have := below hls hp d hd; omega)
  obtain ⟨s2, r2, q2⟩ := runs_insertInRow (pc := pc) (nat := lineKinds pc.ns ls) (G := G) (y := pre.length + 1) (c := lineCell l (some c.node, c.box))
    (done := lineCells pre) (rest := lineCells post)
    (content := some (if pc.embedGrNotes then Content.seq [some (.node l.node)] else FmxP.nodeContent pc l.node)) (st := some (FmxP.calsRowStyles pc l.node))
    (nature := some "footer") (by simpa [List.append_assoc] using hT) (by simp only [lineCell, Cell.min]; exact hyc) (by
      intro m
      refine ⟨rfl, l, some c.node, rfl, ?_⟩
      unfold PlaceRead
      rw [hg.sort, hkf, hnode]
      exact ⟨rfl, rfl, rfl⟩) s1 q1
  have ew : (lineCell l (some c.node, c.box)).width = b.width := by simp only [lineCell, Cell.width, Box.width] at *; omega
  have eh : (lineCell l (some c.node, c.box)).height = 1 := by simp only [lineCell, Cell.height, Box.height]; omega
  rw [ew, eh] at r2
  refine ⟨s2, ?_, ?_⟩
  · simp only [bind_run] at r1
    simp only [bind_run, FmxP.parseNotes]
    cases hn : PState.nextRow s with
    | mk r s0 =>
      rw [hn] at r1
      cases r with
      | error e => cases r1
      | ok u =>
        simp only at r1 ⊢
        rw [r1]
        simp only [get_run, h1, bind_run, lift_run, hb]
        exact r2
  · obtain ⟨t2, g1, g2, g3, g4, g5⟩ := q2
    refine ⟨t2, g1, g2, ?_⟩
    rw [lineCells_snoc, drawn_cells, hg.before, hg.after, hcells]
    simpa using g5

theorem runs_docNotes {G : Goal} {ls : List DocLine} (hG : G.rowOK = LineOK pc ls) (hp : LinePlan pc G.w G.h G.known ls) :
    ∀ (g pre : List DocLine), pre ≠ [] → ls = pre ++ g → (∀ l ∈ g, NoteGood G.w l) →
    Runs (AtGap G (LineRead pc) (lineCells pre) pre.length) (AtGap G (LineRead pc) (lineCells ls) ls.length)
      (forEach (fun n => do PState.nextRow; FmxP.parseNotes pc n) (g.map (·.node))) := by
  intro g
  induction g with
  | nil => intro pre _ hls _; rw [List.append_nil] at hls; subst hls; exact runs_pure
  | cons l g ih =>
    intro pre hpre hls hg
    refine runs_bind (Q := AtGap G (LineRead pc) (lineCells (pre ++ [l])) (pre ++ [l]).length) ?_ ?_
    · have := runs_docNote hls hpre hG hp (hg l (by simp))
      simpa using this
    · exact ih (pre ++ [l]) (by simp) (by simpa using hls) (fun l' hl' => hg l' (by simp [hl']))

theorem notes_eq {parent : Option Node} {corpus : Node} {notes : List Node} (hc : corpus.tag? = some (pc.f "CORPUS")) (h : NotesOf pc.ns parent corpus notes) :
    FmxP.notesOf pc parent = notes := by
  rcases h with ⟨rfl, rfl⟩ | ⟨p, before, after, rfl, h1, h2, rfl⟩
  · rfl
  · unfold FmxP.notesOf
    simp only
    rw [h1]
    have : (before ++ corpus :: after).takeWhile (fun c => decide (c.tag? ≠ some (pc.f "CORPUS"))) = before := by
      rw [List.takeWhile_append_of_pos (by intro a ha; exact decide_eq_true (h2 a ha))]
      rw [List.takeWhile_cons_of_neg (by simp [hc])]
      simp
    rw [this]
    rfl

/-! ### columns -/

/-- the CALS names of the Formex parser -/
def calsOf (pc : FmxP.Config) : CalsP.Config := ⟨pc.calsNs, [], id⟩

/-- what is asked of a `colspec`, after `i` of them -/
structure FmxColGood (pc : FmxP.Config) (i : Nat) (c : DocCol) : Prop where
  tag : c.node.tag? = some (pc.q "colspec")
  plain : NoFmx pc.ns pc.calsNs c.node.children
  number : (c.node.attr (pc.q "colnum") = none ∨ c.node.attr (pc.q "colnum") = some "") ∧ c.num = i + 1 ∨
    ∃ s, c.node.attr (pc.q "colnum") = some s ∧ IsNumber s c.num

theorem runs_fmxDocCol {w b : Nat} {styles : Styles} {nature : Option String} {done : List DocCol} {c : DocCol} (hg : FmxColGood pc done.length c)
    (hw : 1 ≤ c.num ∧ c.num ≤ w) (hne : ∀ c' ∈ done, c'.num ≠ c.num) (p : Option Node) :
    Runs (AtDocCols (calsOf pc) w styles nature done) (AtDocCols (calsOf pc) w styles nature (done ++ [c])) (FmxP.loop pc 1 b (walk (FmxP.selected pc) p c.node)) := by
  refine FmxP.runs_elem hg.tag FmxP.selected_colspec (by simp [FmxP.Config.f, FmxP.Config.q]) (by simp [FmxP.Config.f, FmxP.Config.q])
    (Q := AtDocCols (calsOf pc) w styles nature (done ++ [c])) (S := AtDocCols (calsOf pc) w styles nature (done ++ [c])) ?_ ?_ ?_
  · intro s hs
    obtain ⟨colPos, rowPos, row, table⟩ := s
    have e0 : FmxP.onStart pc b p c.node = (do PState.nextCol; FmxP.parseColspec pc c.node) := by
      simp [FmxP.onStart, hg.tag, FmxP.Config.q, FmxP.Config.f]
    obtain ⟨t, h1, h2, h3, _⟩ := id hs
    simp only at h1 h2 h3
    subst h1 h2 h3
    have hnum : FmxP.colspecNum pc ((done.length : Int) + 1) c.node = .ok (c.num : Int) := by
      unfold FmxP.colspecNum
      rcases hg.number with ⟨h, hn⟩ | ⟨s, hs, hn⟩
      · rcases h with h | h <;> rw [h] <;> simp [hn]
      · rw [hs]
        simp only
        rw [if_neg (isNumber_ne hn), pyInt_number hn]
    obtain ⟨t', hr, hs'⟩ := AtDocCols.edit hw hne hs
    refine ⟨⟨(done.length : Int) + 1, 0, row, some t'⟩, ?_, hs'⟩
    rw [e0]
    unfold FmxP.parseColspec PState.nextCol
    have hst : FmxP.colspecStyles pc c.node = CalsP.colspecStyles (calsOf pc) c.node := rfl
    simp only [bind_run, modify_run, get_run, lift_run, hnum, onTable_mk, hst, hr]
  · rw [walkList_unselected _ _ _ (noFmx_unselected hg.plain)]; exact runs_pure
  · have : FmxP.onEnd pc p c.node = pure () := by
      simp [FmxP.onEnd, hg.tag, FmxP.Config.f, FmxP.Config.q]
    rw [this]; exact runs_pure

theorem runs_fmxDocCols {w b : Nat} {styles : Styles} {nature : Option String} (p : Option Node) :
    ∀ (cs done : List DocCol), (∀ (i : Nat) (c : DocCol), cs[i]? = some c → FmxColGood pc (done.length + i) c) → (∀ c ∈ cs, 1 ≤ c.num ∧ c.num ≤ w) →
    (done ++ cs).Pairwise (fun a b => a.num ≠ b.num) →
    Runs (AtDocCols (calsOf pc) w styles nature done) (AtDocCols (calsOf pc) w styles nature (done ++ cs))
      (FmxP.loop pc 1 b (walkList (FmxP.selected pc) p (cs.map (·.node)))) := by
  intro cs
  induction cs with
  | nil => intro done _ _ _; rw [List.append_nil]; exact runs_pure
  | cons c cs ih =>
    intro done hg hw hne
    have hne' := hne
    rw [List.pairwise_append] at hne'
    refine FmxP.runs_loop_cons (runs_fmxDocCol (hg 0 c rfl) (hw c (by simp)) (fun c' hc' => hne'.2.2 c' hc' c (by simp)) p) ?_
    have := ih (done ++ [c]) (fun i c' hc' => by
      have := hg (i + 1) c' (by simpa using hc')
      simpa [Nat.add_assoc, Nat.add_comm 1 i] using this) (fun c' hc' => hw c' (by simp [hc'])) (by simpa using hne)
    simpa using this

/-! ### looks -/

theorem nodeContent_toks (n : Node) : contentToks (some (FmxP.nodeContent pc n)) = shownToks pc.ns n := by
  unfold FmxP.nodeContent shownToks
  have : FmxP.containsIe pc n = true ↔ ∃ c ∈ n.children, c.tag? = some ⟨pc.ns, "IE"⟩ := by
    unfold FmxP.containsIe
    rw [List.any_eq_true]
    simp only [decide_eq_true_eq]
    rfl
  by_cases h : FmxP.containsIe pc n = true
  · rw [if_pos h, if_pos (this.mp h)]; rfl
  · rw [if_neg h, if_neg (fun h' => h (this.mpr h'))]
    exact entryContent_toks n

theorem calsRow_looks (n : Node) : LineLooks pc.calsNs n (FmxP.calsRowStyles pc n) ∧
    Dict.get? (FmxP.calsRowStyles pc n) "rowstyle" = copied (n.attr ⟨pc.calsNs, "rowstyle"⟩) ∧ Dict.WF (FmxP.calsRowStyles pc n) := by
  refine ⟨⟨?_, ?_, ?_, ?_⟩, ?_, copyStyle_wf (copyStyle_wf (mapStyle_wf (mapStyle_wf Dict.wf_nil)))⟩ <;> unfold FmxP.calsRowStyles <;> simp only
  · rw [copyStyle_get_ne _ _ _ _ _ (by decide), copyStyle_get_ne _ _ _ _ _ (by decide), mapStyle_get_ne _ _ _ _ _ _ (by decide), mapStyle_get rfl, toldValigns]
    rfl
  · rw [copyStyle_get_ne _ _ _ _ _ (by decide), copyStyle_get_ne _ _ _ _ _ (by decide), mapStyle_get (by rw [mapStyle_get_ne _ _ _ _ _ _ (by decide)]; rfl), toldLines]
    rfl
  · rw [copyStyle_get_ne _ _ _ _ _ (by decide), copyStyle_get (by rw [mapStyle_get_ne _ _ _ _ _ _ (by decide), mapStyle_get_ne _ _ _ _ _ _ (by decide)]; rfl), copied_eq]
    rfl
  · intro k hk
    simp only [List.mem_cons, List.not_mem_nil, or_false, not_or] at hk
    obtain ⟨k1, k2, k3, k4⟩ := hk
    rw [copyStyle_get_ne _ _ _ _ _ (Ne.symm k4), copyStyle_get_ne _ _ _ _ _ (Ne.symm k3), mapStyle_get_ne _ _ _ _ _ _ (Ne.symm k2), mapStyle_get_ne _ _ _ _ _ _ (Ne.symm k1)]
    rfl
  · rw [copyStyle_get (by rw [copyStyle_get_ne _ _ _ _ _ (by decide), mapStyle_get_ne _ _ _ _ _ _ (by decide), mapStyle_get_ne _ _ _ _ _ _ (by decide)]; rfl), copied_eq]
    rfl

/-- the style which keeps the name of a line -/
def nameStyles (name : Option (List Char)) : Styles :=
  match name with
  | none => []
  | some s => [("rowstyle", .str (String.ofList s))]

theorem named_looks (l : DocLine) {name : Option (List Char)} (hn : LineName pc.ns l name) {base : Styles}
    (hb : base = nameStyles name) :
    LineShown pc.ns pc.calsNs l (Dict.update base (FmxP.calsRowStyles pc l.node)) := by
  obtain ⟨⟨h1, h2, h3, h4⟩, h5, hwf⟩ := calsRow_looks (pc := pc) l.node
  have hother : ∀ k, k ≠ "rowstyle" → Dict.get? (Dict.update base (FmxP.calsRowStyles pc l.node)) k = Dict.get? (FmxP.calsRowStyles pc l.node) k := by
    intro k hk
    rw [Dict.get?_update hwf]
    have : Dict.get? base k = none := by
      rw [hb]
      cases name with
      | none => rfl
      | some s => rw [nameStyles, Dict.get?_cons, if_neg (Ne.symm hk)]; rfl
    rw [this, Option.or_none]
  refine ⟨⟨by rw [hother _ (by decide)]; exact h1, by rw [hother _ (by decide)]; exact h2, by rw [hother _ (by decide)]; exact h3, ?_⟩, name, hn, ?_⟩
  · intro k hk
    rw [hother k (by rintro rfl; revert hk; decide)]
    exact h4 k hk
  · rw [Dict.get?_update hwf, h5, hb]
    cases name with
    | none => rfl
    | some s => rw [nameStyles, Dict.get?_cons, if_pos rfl]; rfl

theorem levelText_toList (n : Nat) : (FmxP.levelText n).toList = "level".toList ++ Nat.toDigits 10 n := by
  unfold FmxP.levelText
  rw [String.toList_append, intStr_digits (by omega)]
  rfl

theorem title_shown {l : DocLine} (hs : l.sort = .title ∨ l.sort = .subtitle) :
    LineShown pc.ns pc.calsNs l (FmxP.titleStyles pc l.sort.tag l.level l.node) := by
  refine named_looks l (name := some (l.sort.tag.toList ++ "-level".toList ++ Nat.toDigits 10 l.level)) ?_ ?_
  · unfold LineName
    rcases hs with h | h <;> rw [h]
  · have : FmxP.titleStyle l.sort.tag l.level = String.ofList (l.sort.tag.toList ++ "-level".toList ++ Nat.toDigits 10 l.level) := by
      apply String.toList_inj.mp
      unfold FmxP.titleStyle
      rw [String.toList_ofList, String.toList_append, String.toList_append, levelText_toList]
      have : "-level".toList = "-".toList ++ "level".toList := by decide
      rw [this]
      simp only [List.append_assoc]
    rw [this]
    rfl

theorem rowStyle_name (type : Option String) (level : Nat) : ∃ ty lv : List Char,
    ((type = none ∨ type = some "") ∧ ty = [] ∨ ∃ t, type = some t ∧ t ≠ "" ∧ ty = '-' :: t.toList) ∧
      (level = 0 ∧ lv = [] ∨ 1 ≤ level ∧ lv = "-level".toList ++ Nat.toDigits 10 level) ∧
      FmxP.rowStyle type level = (if ty ++ lv = [] then none else some ("ROW".toList ++ ty ++ lv)).map String.ofList := by
  obtain ⟨lt, hlt⟩ : ∃ lt, FmxP.levelText level = lt := ⟨_, rfl⟩
  have hlv : "-level".toList ++ Nat.toDigits 10 level = '-' :: lt.toList := by
    rw [← hlt, levelText_toList]
    rfl
  rw [hlv]
  have parts : ∃ ty : List Char, ∃ pt : List String, ((type = none ∨ type = some "") ∧ ty = [] ∨ ∃ t, type = some t ∧ t ≠ "" ∧ ty = '-' :: t.toList) ∧
      (match type with | none => [] | some t => if t = "" then [] else [t]) = pt ∧ (pt = [] ∧ ty = [] ∨ ∃ t, pt = [t] ∧ ty = '-' :: t.toList) := by
    cases type with
    | none => exact ⟨[], [], .inl ⟨.inl rfl, rfl⟩, rfl, .inl ⟨rfl, rfl⟩⟩
    | some t =>
      by_cases ht : t = ""
      · subst ht; exact ⟨[], [], .inl ⟨.inr rfl, rfl⟩, rfl, .inl ⟨rfl, rfl⟩⟩
      · exact ⟨'-' :: t.toList, [t], .inr ⟨t, rfl, ht, rfl⟩, by simp [ht], .inr ⟨t, rfl, rfl⟩⟩
  obtain ⟨ty, pt, h1, h2, h3⟩ := parts
  have h4 : ∃ (lv : List Char) (pl : List String), (level = 0 ∧ lv = [] ∨ 1 ≤ level ∧ lv = '-' :: lt.toList) ∧ (if level = 0 then [] else [FmxP.levelText level]) = pl ∧
      (pl = [] ∧ lv = [] ∨ pl = [lt] ∧ lv = '-' :: lt.toList) := by
    by_cases h0 : level = 0
    · exact ⟨[], [], .inl ⟨h0, rfl⟩, by simp [h0], .inl ⟨rfl, rfl⟩⟩
    · exact ⟨_, [lt], .inr ⟨by omega, rfl⟩, by simp [h0, hlt], .inr ⟨rfl, rfl⟩⟩
  obtain ⟨lv, pl, g1, g2, g3⟩ := h4
  refine ⟨ty, lv, h1, g1, ?_⟩
  have hrs : FmxP.rowStyle type level = (if pt ++ pl = [] then none else some ("-".intercalate ("ROW" :: (pt ++ pl)))) := by rw [← h2, ← g2]; rfl
  rw [hrs]
  have sep : "-".toList = ['-'] := rfl
  rcases h3 with ⟨rfl, rfl⟩ | ⟨t, rfl, rfl⟩ <;> rcases g3 with ⟨rfl, rfl⟩ | ⟨rfl, rfl⟩
  · rfl
  all_goals
    simp only [List.append_nil, List.nil_append, List.cons_append, reduceCtorEq, if_false, Option.map_some, Option.some.injEq]
    apply String.toList_inj.mp
    rw [String.toList_ofList, String.toList_intercalate, sep]
    simp only [List.map_cons, List.map_nil, List.intercalate_cons_cons, List.intercalate_singleton]
    simp only [List.append_assoc, List.cons_append, List.nil_append]

theorem rowLine_shown {l : DocLine} (hs : l.sort = .row) : LineShown pc.ns pc.calsNs l (FmxP.rowStyles pc l.level l.node) := by
  obtain ⟨ty, lv, h1, h2, h3⟩ := rowStyle_name (l.node.attr (pc.f "TYPE")) l.level
  refine named_looks l (name := if ty ++ lv = [] then none else some ("ROW".toList ++ ty ++ lv)) ?_ ?_
  · unfold LineName
    rw [hs]
    exact ⟨ty, lv, h1, h2, rfl⟩
  · rw [h3]
    generalize (if ty ++ lv = [] then none else some ("ROW".toList ++ ty ++ lv)) = x
    cases x <;> rfl

theorem orText_type (type : Option String) : FmxP.orText type "NORMAL" = typeOr type := by
  cases type <;> rfl

theorem cell_shown (row cell : Node) : CellShown pc.ns pc.calsNs row cell (FmxP.cellStyles pc (some row) cell) := by
  have hbase : ∀ k, k ≠ "cellstyle" → Dict.get? (FmxP.cellStyle (cell.attr (pc.f "TYPE")) (row.attr (pc.f "TYPE"))) k = none := by
    intro k hk
    unfold FmxP.cellStyle
    split
    · rw [Dict.get?_cons, if_neg (Ne.symm hk)]; rfl
    · rfl
  have hcs : Dict.get? (FmxP.cellStyles pc (some row) cell) "cellstyle" = Dict.get? (FmxP.cellStyle (cell.attr (pc.f "TYPE")) (row.attr (pc.f "TYPE"))) "cellstyle" := by
    unfold FmxP.cellStyles
    simp only
    rw [mapStyle_get_ne _ _ _ _ _ _ (by decide), mapStyle_get_ne _ _ _ _ _ _ (by decide), copyStyle_get_ne _ _ _ _ _ (by decide),
      mapStyle_get_ne _ _ _ _ _ _ (by decide), mapStyle_get_ne _ _ _ _ _ _ (by decide)]
  have e1 : ∀ n : Node, n.attr ⟨pc.ns, "TYPE"⟩ = n.attr (pc.f "TYPE") := fun _ => rfl
  refine ⟨?_, ?_, ?_, ?_, ?_, ?_, ?_, ?_, ?_⟩
  · intro h
    rw [hcs]
    unfold FmxP.cellStyle
    rw [orText_type, orText_type, if_neg (fun hne => hne h)]; rfl
  · intro t ht h
    rw [hcs]
    rw [e1] at ht h
    unfold FmxP.cellStyle
    rw [orText_type, orText_type, ht, if_pos h, Dict.get?_cons, if_pos rfl]
  · intro ht h
    rw [hcs]
    rw [e1] at ht h
    unfold FmxP.cellStyle
    rw [orText_type, orText_type, ht, if_pos (show typeOr none ≠ _ from Ne.symm h), Dict.get?_cons, if_pos rfl]
  all_goals unfold FmxP.cellStyles; simp only
  · rw [mapStyle_get_ne _ _ _ _ _ _ (by decide), mapStyle_get_ne _ _ _ _ _ _ (by decide), copyStyle_get_ne _ _ _ _ _ (by decide),
      mapStyle_get_ne _ _ _ _ _ _ (by decide), mapStyle_get (hbase _ (by decide)), toldLines]; rfl
  · rw [mapStyle_get_ne _ _ _ _ _ _ (by decide), mapStyle_get_ne _ _ _ _ _ _ (by decide), copyStyle_get_ne _ _ _ _ _ (by decide),
      mapStyle_get (by rw [mapStyle_get_ne _ _ _ _ _ _ (by decide)]; exact hbase _ (by decide)), toldLines]; rfl
  · rw [mapStyle_get_ne _ _ _ _ _ _ (by decide), mapStyle_get_ne _ _ _ _ _ _ (by decide),
      copyStyle_get (by rw [mapStyle_get_ne _ _ _ _ _ _ (by decide), mapStyle_get_ne _ _ _ _ _ _ (by decide)]; exact hbase _ (by decide)), copied_eq]; rfl
  · rw [mapStyle_get_ne _ _ _ _ _ _ (by decide), mapStyle_get (by
      rw [copyStyle_get_ne _ _ _ _ _ (by decide), mapStyle_get_ne _ _ _ _ _ _ (by decide), mapStyle_get_ne _ _ _ _ _ _ (by decide)]; exact hbase _ (by decide)), toldValigns]; rfl
  · rw [mapStyle_get (by
      rw [mapStyle_get_ne _ _ _ _ _ _ (by decide), copyStyle_get_ne _ _ _ _ _ (by decide), mapStyle_get_ne _ _ _ _ _ _ (by decide), mapStyle_get_ne _ _ _ _ _ _ (by decide)]
      exact hbase _ (by decide)), toldAligns]; rfl
  · intro k hk
    simp only [List.mem_cons, List.not_mem_nil, or_false, not_or] at hk
    obtain ⟨k1, k2, k3, k4, k5, k6⟩ := hk
    rw [mapStyle_get_ne _ _ _ _ _ _ (Ne.symm k6), mapStyle_get_ne _ _ _ _ _ _ (Ne.symm k5), copyStyle_get_ne _ _ _ _ _ (Ne.symm k4),
      mapStyle_get_ne _ _ _ _ _ _ (Ne.symm k3), mapStyle_get_ne _ _ _ _ _ _ (Ne.symm k2)]
    exact hbase k k1

theorem frameStyles_wf {frame : Option String} {st : Styles} (h : CalsP.getFrameStyles frame = .ok st) :
    Dict.WF st ∧ ∀ k, k ∉ ["border-top", "border-right", "border-bottom", "border-left"] → Dict.get? st k = none := by
  unfold CalsP.getFrameStyles at h
  split at h
  · cases h; exact ⟨Dict.wf_nil, fun _ _ => rfl⟩
  · split at h
    · cases h; exact ⟨Dict.wf_nil, fun _ _ => rfl⟩
    · split at h
      · cases h
      · cases h
        refine ⟨by unfold Dict.WF; simp, ?_⟩
        intro k hk
        simp only [List.mem_cons, List.not_mem_nil, or_false, not_or] at hk
        obtain ⟨k1, k2, k3, k4⟩ := hk
        simp [Dict.get?_cons, Ne.symm k1, Ne.symm k2, Ne.symm k3, Ne.symm k4]

theorem corpus_shown {parent : Option Node} {corpus : Node} {st : Styles} (h : FmxP.corpusStyles pc parent corpus = .ok st) :
    CorpusShown pc.ns pc.calsNs parent corpus (copyStyles (some st)) := by
  have hcopy : ∀ k, Dict.get? (copyStyles (some st)) k = Dict.get? st k := fun _ => rfl
  unfold FmxP.corpusStyles at h
  obtain ⟨fr, h1, h⟩ := bind_ok h
  cases h
  obtain ⟨hwf, hno⟩ := frameStyles_wf h1
  have hpage : Dict.get? (FmxP.tblStyles pc parent).1 "x-sect-orient" = told [("DOUBLE.LANDSCAPE", "landscape"), ("DOUBLE.PORTRAIT", "portrait"),
      ("SINGLE.LANDSCAPE", "landscape"), ("SINGLE.PORTRAIT", "portrait")] (parent.bind (fun p => p.attr ⟨pc.ns, "PAGE.SIZE"⟩)) := by
    cases parent with
    | none => rfl
    | some p =>
      unfold FmxP.tblStyles
      simp only
      rw [mapStyle_get rfl, told_eq]
      rfl
  have hpno : ∀ k, k ≠ "x-sect-orient" → Dict.get? (FmxP.tblStyles pc parent).1 k = none := by
    intro k hk
    cases parent with
    | none => rfl
    | some p =>
      unfold FmxP.tblStyles
      simp only
      rw [mapStyle_get_ne _ _ _ _ _ _ (Ne.symm hk)]
      rfl
  have hbase : ∀ k, k ∉ ["border-top", "border-right", "border-bottom", "border-left", "x-sect-orient"] → Dict.get? (Dict.update (FmxP.tblStyles pc parent).1 fr) k = none := by
    intro k hk
    simp only [List.mem_cons, List.not_mem_nil, or_false, not_or] at hk
    rw [Dict.get?_update hwf, hno k (by simp only [List.mem_cons, List.not_mem_nil, or_false, not_or]; tauto), hpno k (by tauto)]
    rfl
  have hborder : ∀ k ∈ ["border-top", "border-right", "border-bottom", "border-left"], Dict.get? (Dict.update (FmxP.tblStyles pc parent).1 fr) k = Dict.get? fr k := by
    intro k hk
    rw [Dict.get?_update hwf, hpno k (by rintro rfl; revert hk; decide), Option.or_none]
  refine ⟨frame_shown h1 ?_, ?_, ?_, ?_, ?_, ?_⟩
  · intro k hk
    have := hborder k hk
    simp only [List.mem_cons, List.not_mem_nil, or_false] at hk
    rw [hcopy, ← this]
    rcases hk with rfl | rfl | rfl | rfl <;>
      rw [copyStyle_get_ne _ _ _ _ _ (by decide), mapStyle_get_ne _ _ _ _ _ _ (by decide), mapStyle_get_ne _ _ _ _ _ _ (by decide),
        mapStyle_get_ne _ _ _ _ _ _ (by decide), mapStyle_get_ne _ _ _ _ _ _ (by decide)]
  · rw [hcopy, copyStyle_get_ne _ _ _ _ _ (by decide), mapStyle_get_ne _ _ _ _ _ _ (by decide), mapStyle_get_ne _ _ _ _ _ _ (by decide),
        mapStyle_get_ne _ _ _ _ _ _ (by decide), mapStyle_get (hbase _ (by decide)), toldLines]; rfl
  · rw [hcopy, copyStyle_get_ne _ _ _ _ _ (by decide), mapStyle_get_ne _ _ _ _ _ _ (by decide), mapStyle_get_ne _ _ _ _ _ _ (by decide),
        mapStyle_get (by rw [mapStyle_get_ne _ _ _ _ _ _ (by decide)]; exact hbase _ (by decide)), toldLines]; rfl
  · rw [hcopy, copyStyle_get_ne _ _ _ _ _ (by decide), mapStyle_get_ne _ _ _ _ _ _ (by decide), mapStyle_or, mapStyle_get_ne _ _ _ _ _ _ (by decide),
        mapStyle_get_ne _ _ _ _ _ _ (by decide), Dict.get?_update hwf, hno _ (by decide), Option.none_or, hpage, told_eq (known := [("land", "landscape"), ("port", "portrait")])]
    rfl
  · rw [hcopy, copyStyle_get_ne _ _ _ _ _ (by decide), mapStyle_get (by
      rw [mapStyle_get_ne _ _ _ _ _ _ (by decide), mapStyle_get_ne _ _ _ _ _ _ (by decide), mapStyle_get_ne _ _ _ _ _ _ (by decide)]; exact hbase _ (by decide)),
      told_eq (known := [("0", "2"), ("1", "1")])]
    rfl
  · rw [hcopy, copyStyle_get (by
      rw [mapStyle_get_ne _ _ _ _ _ _ (by decide), mapStyle_get_ne _ _ _ _ _ _ (by decide), mapStyle_get_ne _ _ _ _ _ _ (by decide), mapStyle_get_ne _ _ _ _ _ _ (by decide)]
      exact hbase _ (by decide)), copied_eq]
    rfl

theorem corpus_nature (parent : Option Node) (corpus : Node) :
    CorpusNature (parent.bind (fun p => p.attr ⟨pc.ns, "CLASS"⟩)) (corpus.attr ⟨pc.calsNs, "tabstyle"⟩) (FmxP.corpusNature pc parent corpus) := by
  have hc : (FmxP.tblStyles pc parent).2 = parent.bind (fun p => p.attr ⟨pc.ns, "CLASS"⟩) := by cases parent <;> rfl
  have ht : corpus.attr ⟨pc.calsNs, "tabstyle"⟩ = corpus.attr (pc.q "tabstyle") := rfl
  rw [ht]
  unfold FmxP.corpusNature
  rw [hc]
  generalize parent.bind (fun p => p.attr ⟨pc.ns, "CLASS"⟩) = cls
  cases corpus.attr (pc.q "tabstyle") with
  | none => exact .inl ⟨.inl rfl, rfl⟩
  | some s =>
    by_cases hs : s = ""
    · subst hs; exact .inl ⟨.inr rfl, rfl⟩
    · simp only [if_neg hs]
      refine .inr ⟨s, rfl, hs, ?_⟩
      cases cls with
      | none => exact .inl ⟨.inl rfl, rfl⟩
      | some c =>
        by_cases hc' : c = ""
        · subst hc'; exact .inl ⟨.inr rfl, rfl⟩
        · simp only [if_neg hc']
          refine .inr ⟨c, _, rfl, hc', rfl, ?_⟩
          rw [String.toList_append, String.toList_append]
          simp

end Benker
