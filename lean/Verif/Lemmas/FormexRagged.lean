import Verif.Spec.FormexRagged
import Verif.Lemmas.Ragged
import Verif.Lemmas.FormexDoc
import Verif.Props.FormexDoc

/-! Simulation of the Formex parser on a Formex table whose rows have not all the same length. -/

namespace Benker
open PyM Cals CalsSpec FmxSpec

variable {pc : FmxP.Config}

/-- something which is drawn in a line -/
abbrev Drawing := DocLine × Option Node × Box

/-- its place -/
abbrev drawnBox (x : Drawing) : Box := x.2.2

/-- what must be read of it -/
abbrev drawnIs (pc : FmxP.Config) (x : Drawing) (c : Cell Content) : Prop := c.box = x.2.2 ∧ PlaceRead pc x.1 x.2.1 c

theorem drawnIs_box : ∀ (x : Drawing) (c : Cell Content), drawnIs pc x c → c.box = drawnBox x := fun _ _ h => h.1

/-- everything which is drawn in some lines -/
def drawnOf (ls : List DocLine) : List Drawing := ls.flatMap (fun l => l.drawn.map (fun e => (l, e)))

/-- state of the parser between two lines -/
def GapF (pc : FmxP.Config) (G : Goal) (E : List Drawing) (y : Nat) (s : PState) : Prop :=
  ∃ t, s.table = some t ∧ s.rowPos = y ∧ Rag drawnBox (drawnIs pc) G E y y t

/-- state of the parser in a line -/
def RowF (pc : FmxP.Config) (G : Goal) (k : String) (E : List Drawing) (y : Nat) (s : PState) : Prop :=
  ∃ t, s.table = some t ∧ s.rowPos = ((y + 1 : Nat) : Int) ∧ s.row = some (((y + 1 : Nat) : Int), some k) ∧ 0 ≤ s.colPos ∧ Rag drawnBox (drawnIs pc) G E (y + 1) y t

section
variable {G : Goal} {k : String} {y : Nat}

theorem runs_insertF {E : List Drawing} {x : Drawing} {content : Option Content} {st : Option Styles} {nature : Option String} {w h : Int}
    (hw : w = x.2.2.max.x - x.2.2.min.x + 1) (hh : h = x.2.2.max.y - x.2.2.min.y + 1) (hp : PlaceFor drawnBox G E (y + 1) x.2.2)
    (hc : ∀ m, PlaceRead pc x.1 x.2.1 ⟨content, st.getD [], nature.or m, x.2.2⟩) :
    Runs (RowF pc G k E y) (RowF pc G k (E ++ [x]) y) (FmxP.insertInRow content st nature w h) := by
  subst hw hh
  intro s hs
  obtain ⟨colPos, rowPos, row, table⟩ := s
  obtain ⟨t, h1, h2, h3, h4, h5⟩ := hs
  simp only at h1 h2 h3 h4
  subst h1 h3
  obtain ⟨t', r1, r2⟩ := Rag.insert (x := x) drawnIs_box h5 rfl (content := content) (st := st) (nature := nature) (fun m => ⟨rfl, hc m⟩) hp
  refine ⟨⟨colPos, rowPos, some (((y + 1 : Nat) : Int), some k), some t'⟩, ?_, t', rfl, h2, rfl, h4, r2⟩
  unfold FmxP.insertInRow
  simp only [bind_run, theRow_mk, onTable_mk, r1]

theorem runs_cellF {E : List Drawing} {l : DocLine} (hl : l.sort = .row) {c : DocCell} (hg : CellGood pc c) {b : Nat}
    (hp : PlaceFor drawnBox G E (y + 1) c.box) :
    Runs (RowF pc G (l.kind pc.ns) E y) (RowF pc G (l.kind pc.ns) (E ++ [(l, some c.node, c.box)]) y)
      (FmxP.loop pc 1 b (walk (FmxP.selected pc) (some l.node) c.node)) := by
  refine FmxP.runs_elem hg.tag (FmxP.selected_f _ (by simp)) (by simp [FmxP.Config.f]) (by simp [FmxP.Config.f])
    (Q := RowF pc G (l.kind pc.ns) (E ++ [(l, some c.node, c.box)]) y) (S := RowF pc G (l.kind pc.ns) (E ++ [(l, some c.node, c.box)]) y) ?_ ?_ ?_
  · have e0 : FmxP.onStart pc b (some l.node) c.node = (do PState.nextCol; FmxP.parseCell pc (some l.node) c.node) := by
      simp [FmxP.onStart, hg.tag]
    have hspan := docCellSpan_ok hg.cols hg.rows
    rw [e0]
    refine runs_bind (Q := RowF pc G (l.kind pc.ns) E y) ?_ ?_
    · rintro s ⟨t, h1, h2, h3, h4, h5⟩
      exact ⟨_, rfl, t, h1, h2, h3, by simp only; omega, h5⟩
    · intro s hs
      obtain ⟨t, h1, h2, h3, h4, h5⟩ := id hs
      obtain ⟨s', r1, r2⟩ := runs_insertF (pc := pc) (x := (l, some c.node, c.box)) (content := some (FmxP.nodeContent pc c.node))
        (st := some (FmxP.cellStyles pc (some l.node) c.node)) (nature := FmxP.cellNature (c.node.attr (pc.f "TYPE")) (some (l.kind pc.ns))) rfl rfl hp (by
          intro m
          simp only [PlaceRead, hl, Option.getD_some, cellNature_kind]
          exact ⟨trivial, trivial, rfl⟩) s hs
      refine ⟨s', ?_, r2⟩
      rw [← r1]
      obtain ⟨colPos, rowPos, row, table⟩ := s
      simp only at h3
      subst h3
      unfold FmxP.parseCell
      simp only [bind_run, lift_run, hspan, theRow_mk]
  · rw [walkList_unselected _ _ _ (noFmx_unselected hg.plain)]
    exact runs_pure
  · have : FmxP.onEnd pc (some l.node) c.node = pure () := by
      simp [FmxP.onEnd, hg.tag, FmxP.Config.f]
    rw [this]; exact runs_pure

theorem runs_cellsF {l : DocLine} (hl : l.sort = .row) {b : Nat} : ∀ (cs : List DocCell) (E : List Drawing), (∀ c ∈ cs, CellGood pc c) →
    (∀ a c z, cs = a ++ c :: z → PlaceFor drawnBox G (E ++ a.map (fun c => (l, some c.node, c.box))) (y + 1) c.box) →
    Runs (RowF pc G (l.kind pc.ns) E y) (RowF pc G (l.kind pc.ns) (E ++ cs.map (fun c => (l, some c.node, c.box))) y)
      (FmxP.loop pc 1 b (walkList (FmxP.selected pc) (some l.node) (cs.map (·.node)))) := by
  intro cs
  induction cs with
  | nil => intro E _ _; rw [List.map_nil, List.append_nil]; exact runs_pure
  | cons c cs ih =>
    intro E hg hp
    refine FmxP.runs_loop_cons (runs_cellF hl (hg c (by simp)) (by simpa using hp [] c cs rfl)) ?_
    have := ih (E ++ [(l, some c.node, c.box)]) (fun e he => hg e (by simp [he])) (fun a e' z h => by
      have := hp (c :: a) e' z (by rw [h]; rfl)
      simpa using this)
    simpa using this

/-- the places left of a title -/
theorem runs_placesF {l : DocLine} (hk : l.kind pc.ns = "body") : ∀ (bs : List Box) (ks : List Int) (E : List Drawing), ks.length = bs.length →
    (∀ a b z, bs = a ++ b :: z → b.max = b.min ∧ PlaceFor drawnBox G (E ++ a.map (fun b => (l, none, b))) (y + 1) b) →
    Runs (RowF pc G k E y) (RowF pc G k (E ++ bs.map (fun b => (l, none, b))) y)
      (forEach (fun _ => FmxP.insertInRow none none (some "body") 1 1) ks) := by
  intro bs
  induction bs with
  | nil =>
    intro ks E hlen _
    obtain rfl : ks = [] := List.length_eq_zero_iff.mp (by simpa using hlen)
    rw [List.map_nil, List.append_nil]; exact runs_pure
  | cons b bs ih =>
    intro ks E hlen hp
    cases ks with
    | nil => simp at hlen
    | cons j ks =>
      obtain ⟨h1, h2⟩ := hp [] b bs rfl
      refine runs_bind (runs_insertF (x := (l, none, b)) (by simp only [h1]; omega) (by simp only [h1]; omega) (by simpa using h2) (by
        intro m
        exact ⟨rfl, rfl, by rw [hk]; rfl⟩)) ?_
      have := ih ks (E ++ [(l, none, b)]) (by simpa using hlen) (fun a e' z h => by
        have := hp (b :: a) e' z (by rw [h]; rfl)
        simpa using this)
      simpa using this

end

/-- what is asked of a line -/
structure LineGoodF (pc : FmxP.Config) (l : DocLine) : Prop where
  sort : l.sort ≠ .note
  tag : l.node.tag? = some (pc.f l.sort.tag)
  row : l.sort = .row → l.before = [] ∧ Among pc.ns pc.calsNs (l.cells.map (·.node)) l.node.children ∧ ∀ c ∈ l.cells, CellGood pc c
  title : l.sort ≠ .row → NoFmx pc.ns pc.calsNs l.node.children ∧ ∃ c a b, l.cells = [c] ∧ c.node = l.node ∧
    ToldNumber (l.node.attr (pc.f "COL.START")) 1 a ∧ ToldNumber (l.node.attr (pc.f "COL.END")) 1 b ∧
    l.before.length + 1 = a ∧ c.box.max.x - c.box.min.x = (b : Int) - a ∧ c.box.max.y = c.box.min.y
  places : ∀ b ∈ l.before, b.max = b.min
  openEnd : l.after = []

/-- what is asked of the lines -/
structure PlanF (pc : FmxP.Config) (G : Goal) (ls : List DocLine) : Prop where
  first : ∃ l, ls[0]? = some l ∧ l.cells ≠ []
  place : ∀ pre l post, ls = pre ++ l :: post → ∀ a e z, l.drawn = a ++ e :: z →
    PlaceFor drawnBox G (drawnOf pre ++ a.map (fun e => (l, e))) (pre.length + 1) e.2
  looks : G.rowOK = LineOK pc ls
  height : ls.length ≤ G.h

theorem drawn_open {l : DocLine} (h : l.after = []) : l.drawn.map (fun e => (l, e)) =
    l.before.map (fun b => ((l, none, b) : Drawing)) ++ l.cells.map (fun c => (l, some c.node, c.box)) := by
  simp [DocLine.drawn, h, Function.comp_def]

section
variable {G : Goal} {ls pre post : List DocLine} {l : DocLine}

/-- the end of a line -/
theorem runs_endF (hls : ls = pre ++ l :: post) (hp : PlanF pc G ls) (hsn : l.sort ≠ .note) :
    Runs (RowF pc G (l.kind pc.ns) (drawnOf (pre ++ [l])) pre.length) (GapF pc G (drawnOf (pre ++ [l])) (pre.length + 1)) CalsP.endRow := by
  have hget : ls[pre.length]? = some l := by rw [hls]; simp
  have hlt : pre.length + 1 ≤ G.h := by have := hp.height; rw [hls] at this; simp at this; omega
  have hne : drawnOf (pre ++ [l]) ≠ [] := by
    obtain ⟨r0, h0, he⟩ := hp.first
    obtain ⟨c, hc⟩ := List.exists_mem_of_ne_nil _ he
    have hm : r0 ∈ pre ++ [l] := by
      have : (pre ++ [l])[0]? = some r0 := by
        rw [hls] at h0
        cases pre with
        | nil => simpa using h0
        | cons a l => simpa using h0
      exact List.mem_of_getElem? this
    intro h
    have : (r0, some c.node, c.box) ∈ drawnOf (pre ++ [l]) := by
      refine List.mem_flatMap.mpr ⟨r0, hm, List.mem_map.mpr ⟨(some c.node, c.box), ?_, rfl⟩⟩
      unfold DocLine.drawn
      exact List.mem_append_left _ (List.mem_append_right _ (List.mem_map.mpr ⟨c, hc, rfl⟩))
    rw [h] at this; cases this
  have hok : ∃ st, G.rowOK pre.length (some (l.kind pc.ns)) st := by
    rw [hp.looks]
    cases hs : l.sort with
    | row => exact ⟨FmxP.rowStyles pc l.level l.node, l, hget, rfl, fun _ => rfl, fun h => by rw [hs] at h; simp at h⟩
    | title => exact ⟨FmxP.titleStyles pc l.sort.tag l.level l.node, l, hget, rfl, (fun h => by rw [hs] at h; cases h), fun _ => rfl⟩
    | subtitle => exact ⟨FmxP.titleStyles pc l.sort.tag l.level l.node, l, hget, rfl, (fun h => by rw [hs] at h; cases h), fun _ => rfl⟩
    | note => exact absurd hs hsn
  intro s hs
  obtain ⟨colPos, rowPos, srow, table⟩ := s
  obtain ⟨t, h1, h2, h3, _, h5⟩ := hs
  simp only at h1 h2 h3
  subst h1 h2 h3
  obtain ⟨hlen, t', r1, r2⟩ := Rag.endRow drawnIs_box h5 hne hlt (some (l.kind pc.ns)) hok
  refine ⟨⟨colPos, ((pre.length + 1 : Nat) : Int), some (((pre.length + 1 : Nat) : Int), some (l.kind pc.ns)), some t'⟩, ?_, t', rfl, rfl, r2⟩
  have hbox : Box.make 1 (pre.length + 1 : Nat) ((t.baseViews .col).length : Int) (pre.length + 1 : Nat) =
      .ok ⟨⟨1, ((pre.length + 1 : Nat) : Int)⟩, ⟨((t.baseViews .col).length : Int), ((pre.length + 1 : Nat) : Int)⟩⟩ :=
    make_eq_ok (by omega)
  unfold CalsP.endRow
  simp only [bind_run, onTable_mk]
  rw [Table.views_run .col t h5.inv.grid]
  simp only [get_run, lift_run, hbox, theRow_mk, onTable_mk, r1]

/-- the beginning of a line -/
theorem runs_startF (hls : ls = pre ++ l :: post) (hp : PlanF pc G ls) (st : Option Styles)
    (hst : (l.sort = .row → st = some (FmxP.rowStyles pc l.level l.node)) ∧ (l.sort = .title ∨ l.sort = .subtitle → st = some (FmxP.titleStyles pc l.sort.tag l.level l.node))) :
    Runs (GapF pc G (drawnOf pre) pre.length) (RowF pc G (l.kind pc.ns) (drawnOf pre) pre.length) (do PState.nextRow; FmxP.startRow (l.kind pc.ns) st) := by
  have hget : ls[pre.length]? = some l := by rw [hls]; simp
  have hlt : pre.length + 1 ≤ G.h := by have := hp.height; rw [hls] at this; simp at this; omega
  intro s hs
  obtain ⟨colPos, rowPos, srow, table⟩ := s
  obtain ⟨t, e1, e2, e3⟩ := hs
  simp only at e1 e2
  subst e1 e2
  obtain ⟨t', r1, r2⟩ := e3.startRow (fun v => { v with nature := some (l.kind pc.ns), styles := st.getD v.styles }) (fun v => ⟨rfl, rfl, rfl⟩) hlt
    (fun v => by
      rw [hp.looks]
      refine ⟨l, hget, rfl, ?_, ?_⟩
      · intro h; rw [hst.1 h]; rfl
      · intro h; rw [hst.2 h]; rfl)
  refine ⟨⟨0, (pre.length : Int) + 1, some ((pre.length : Int) + 1, some (l.kind pc.ns)), some t'⟩, ?_, t', rfl, by simp, by simp, by simp, r2⟩
  unfold PState.nextRow FmxP.startRow
  simp only [bind_run, modify_run, get_run, onTable_mk, r1]

theorem runs_lineF (hls : ls = pre ++ l :: post) (hp : PlanF pc G ls) (hg : LineGoodF pc l) (p : Option Node) :
    Runs (GapF pc G (drawnOf pre) pre.length) (GapF pc G (drawnOf (pre ++ [l])) (pre.length + 1))
      (FmxP.loop pc 1 l.level (walk (FmxP.selected pc) p l.node)) := by
  have hend := runs_endF hls hp hg.sort
  have hcells : drawnOf (pre ++ [l]) = drawnOf pre ++ (l.before.map (fun b => ((l, none, b) : Drawing)) ++ l.cells.map (fun c => (l, some c.node, c.box))) := by
    rw [← drawn_open hg.openEnd]; simp [drawnOf]
  have hdr : l.drawn = l.before.map (fun b => (none, b)) ++ l.cells.map (fun c => (some c.node, c.box)) := by
    simp [DocLine.drawn, hg.openEnd]
  have hplace := hp.place pre l post hls
  have htag := hg.tag
  have hsel : FmxP.selected pc (pc.f l.sort.tag) = true := FmxP.selected_f _ (by cases h : l.sort <;> simp [LineSort.tag]; exact hg.sort h)
  have hc : pc.f l.sort.tag ≠ pc.f "CORPUS" := by cases h : l.sort <;> simp [LineSort.tag, FmxP.Config.f]
  have hb : pc.f l.sort.tag ≠ pc.f "BLK" := by cases h : l.sort <;> simp [LineSort.tag, FmxP.Config.f]
  have e1 : FmxP.onEnd pc p l.node = CalsP.endRow := by
    unfold FmxP.onEnd
    rw [htag]
    cases h : l.sort <;> simp [LineSort.tag, FmxP.Config.f]
    exact absurd h hg.sort
  by_cases hrow : l.sort = .row
  · obtain ⟨hbef, hin, hcs⟩ := hg.row hrow
    have e0 : FmxP.onStart pc l.level p l.node = (do PState.nextRow; FmxP.startRow (l.kind pc.ns) (some (FmxP.rowStyles pc l.level l.node))) := by
      have : l.node.tag? = some (pc.f "ROW") := by rw [htag, hrow]; rfl
      have hkr : l.kind pc.ns = FmxP.rowNature (l.node.attr (pc.f "TYPE")) := by
        rw [rowNature_kind]; unfold DocLine.kind; rw [hrow]; rfl
      rw [hkr]
      simp [FmxP.onStart, this, FmxP.Config.f, FmxP.parseRow]
    refine FmxP.runs_elem htag hsel hc hb (Q := RowF pc G (l.kind pc.ns) (drawnOf pre) pre.length) ?_ ?_ (by rw [e1]; exact hend)
    · rw [e0]
      exact runs_startF hls hp _ ⟨fun _ => rfl, fun h => by rw [hrow] at h; simp at h⟩
    · rw [among_walk hin, hcells, hbef, List.map_nil, List.nil_append]
      refine runs_cellsF hrow l.cells (drawnOf pre) hcs ?_
      intro a c z hcz
      have := hplace (a.map (fun c => (some c.node, c.box))) (some c.node, c.box) (z.map (fun c => (some c.node, c.box))) (by rw [hdr, hbef, hcz]; simp)
      simpa [List.map_map, Function.comp_def] using this
  · obtain ⟨hno, c, a, b, hcs, hnode, hs, he, hlen, hx, hy⟩ := hg.title hrow
    have hts : l.sort = .title ∨ l.sort = .subtitle := by
      cases h : l.sort with
      | row => exact absurd h hrow
      | note => exact absurd h hg.sort
      | title => exact .inl rfl
      | subtitle => exact .inr rfl
    have hkb : l.kind pc.ns = "body" := by unfold DocLine.kind; rcases hts with h | h <;> rw [h]
    have e0 : FmxP.onStart pc l.level p l.node = (do PState.nextRow; FmxP.titleRow pc (FmxP.titleStyles pc l.sort.tag l.level l.node) l.node) := by
      unfold FmxP.onStart
      rw [htag]
      rcases hts with h | h <;> rw [h] <;> simp [LineSort.tag, FmxP.Config.f, FmxP.parseTitle]
    refine FmxP.runs_elem htag hsel hc hb (Q := RowF pc G (l.kind pc.ns) (drawnOf (pre ++ [l])) pre.length) ?_
      (by rw [walkList_unselected _ _ _ (noFmx_unselected hno)]; exact runs_pure) (by rw [e1]; exact hend)
    rw [e0]
    have hstart := runs_startF hls hp (some (FmxP.titleStyles pc l.sort.tag l.level l.node)) ⟨fun h => absurd h hrow, fun _ => rfl⟩
    have hplaces := runs_placesF (G := G) (y := pre.length) (k := l.kind pc.ns) (pc := pc) hkb l.before (pyRange 1 (a : Int)) (drawnOf pre)
      (by rw [length_pyRange]; omega) (by
        intro a' b' z hbz
        refine ⟨hg.places b' (by rw [hbz]; simp), ?_⟩
        have := hplace (a'.map (fun b => (none, b))) (none, b') (z.map (fun b => (none, b)) ++ l.cells.map (fun c => (some c.node, c.box))) (by rw [hdr, hbz]; simp)
        simpa [List.map_map, Function.comp_def] using this)
    have htitle := runs_insertF (pc := pc) (G := G) (k := l.kind pc.ns) (y := pre.length) (x := (l, some c.node, c.box))
      (E := drawnOf pre ++ l.before.map (fun b => (l, none, b)))
      (content := some (FmxP.nodeContent pc c.node)) (st := none) (nature := some "body") (w := (b : Int) - a + 1) (h := 1) (by simp only; omega) (by simp only; omega) (by
        have := hplace (l.before.map (fun b => (none, b))) (some c.node, c.box) [] (by rw [hdr, hcs]; simp)
        simpa [List.map_map, Function.comp_def] using this) (by
        intro m
        unfold PlaceRead
        rcases hts with h | h <;> simp only [h] <;> exact ⟨trivial, rfl, by rw [hkb]; rfl⟩)
    rw [hkb] at hstart hplaces htitle
    rw [hnode] at htitle
    have hall := runs_bind hstart (k := fun _ => forEach (fun _ => FmxP.insertInRow none none (some "body") 1 1) (pyRange 1 (a : Int)) >>= fun _ =>
      FmxP.insertInRow (some (FmxP.nodeContent pc l.node)) none (some "body") ((b : Int) - a + 1) 1) (runs_bind hplaces htitle)
    intro s hs'
    obtain ⟨s', r1, r2⟩ := hall s hs'
    refine ⟨s', ?_, ?_⟩
    · rw [← r1]
      unfold FmxP.titleRow
      have i1 := toldNumber_int hs
      have i2 := toldNumber_int he
      simp only [bind_run, lift_run, i1, i2]
      cases PState.nextRow s with
      | mk r s1 =>
        cases r with
        | error e => rfl
        | ok u =>
          cases FmxP.startRow "body" (some (FmxP.titleStyles pc l.sort.tag l.level l.node)) s1 with
          | mk r s2 => cases r <;> rfl
    · rw [hcells, hcs, List.map_cons, List.map_nil, hnode, hkb]
      simpa [List.append_assoc] using r2

end

theorem runs_linesF {G : Goal} {ls : List DocLine} (hp : PlanF pc G ls) {level : Nat} {g : List DocLine} {nodes : List Node}
    (h : Lines pc.ns pc.calsNs level g nodes) : ∀ (pre post : List DocLine) (p : Option Node), ls = pre ++ g ++ post → (∀ l ∈ g, LineGoodF pc l) →
    Runs (GapF pc G (drawnOf pre) pre.length) (GapF pc G (drawnOf (pre ++ g)) (pre ++ g).length)
      (FmxP.loop pc 1 level (walkList (FmxP.selected pc) p nodes)) := by
  induction h with
  | nil level => intro pre post p _ _; rw [List.append_nil]; exact runs_pure
  | skip level n g all hn _ ih =>
    intro pre post p hls hg
    have := walkList_unselected _ p _ (noFmx_unselected hn)
    rw [walkList, walkList, List.append_nil] at this
    rw [walkList, this, List.nil_append]
    exact ih pre post p hls hg
  | line level l g all hl _ ih =>
    intro pre post p hls hg
    subst hl
    refine FmxP.runs_loop_cons (Q := GapF pc G (drawnOf (pre ++ [l])) (pre ++ [l]).length) ?_ ?_
    · have := runs_lineF (post := g ++ post) (by simpa using hls) hp (hg l (by simp)) p
      simpa using this
    · have := ih (pre ++ [l]) post p (by simpa using hls) (fun l' hl' => hg l' (by simp [hl']))
      simpa using this
  | block level n inside g all hn _ _ ih1 ih2 =>
    intro pre post p hls hg
    refine FmxP.runs_loop_cons (runs_block hn (ih1 pre (g ++ post) (some n) (by simpa using hls) (fun l hl => hg l (by simp [hl])))) ?_
    have := ih2 (pre ++ inside) post p (by simpa using hls) (fun l hl => hg l (by simp [hl]))
    simpa using this

theorem drawnOf_ne {G : Goal} {ls pre post : List DocLine} (hls : ls = pre ++ post) (hpre : pre ≠ []) (hp : PlanF pc G ls) : drawnOf pre ≠ [] := by
  obtain ⟨r0, h0, he⟩ := hp.first
  obtain ⟨c, hc⟩ := List.exists_mem_of_ne_nil _ he
  have hm : r0 ∈ pre := by
    rw [hls] at h0
    cases pre with
    | nil => exact absurd rfl hpre
    | cons a l =>
      simp only [List.cons_append, List.getElem?_cons_zero, Option.some.injEq] at h0
      subst h0; simp
  intro h
  have : (r0, some c.node, c.box) ∈ drawnOf pre := by
    refine List.mem_flatMap.mpr ⟨r0, hm, List.mem_map.mpr ⟨(some c.node, c.box), ?_, rfl⟩⟩
    unfold DocLine.drawn
    exact List.mem_append_left _ (List.mem_append_right _ (List.mem_map.mpr ⟨c, hc, rfl⟩))
  rw [h] at this; cases this

theorem runs_noteF {G : Goal} {ls pre post : List DocLine} {l : DocLine} (hls : ls = pre ++ l :: post) (hpre : pre ≠ [])
    (hp : PlanF pc G ls) (hg : NoteGood G.w l) (hwid : (∃ e ∈ drawnOf pre, e.2.2.max.x = G.w) ∨ G.known = G.w) :
    Runs (GapF pc G (drawnOf pre) pre.length) (GapF pc G (drawnOf (pre ++ [l])) (pre.length + 1)) (do PState.nextRow; FmxP.parseNotes pc l.node) := by
  obtain ⟨c, hcells, hnode, hx1, hx2, hy1⟩ := hg.cell
  have hkf : l.kind pc.ns = "footer" := by unfold DocLine.kind; rw [hg.sort]
  have hstart := runs_startF hls hp none ⟨fun h => (by rw [hg.sort] at h; cases h), fun h => (by rw [hg.sort] at h; simp at h)⟩
  have hdr : l.drawn = [(some c.node, c.box)] := by unfold DocLine.drawn; rw [hg.before, hg.after, hcells]; rfl
  have hpl : PlaceFor drawnBox G (drawnOf pre) (pre.length + 1) c.box := by
    have := hp.place pre l post hls [] (some c.node, c.box) [] (by rw [hdr]; rfl)
    simpa using this
  have hpos : 1 ≤ pre.length := List.length_pos_of_ne_nil hpre
  rw [hkf] at hstart
  intro s hs
  obtain ⟨s1, r1, q1⟩ := hstart s hs
  obtain ⟨t, h1, h2, h3, h4, h5⟩ := id q1
  obtain ⟨b, hb, hbw⟩ := h5.boundingWidth drawnIs_box (drawnOf_ne hls hpre hp) hpos hwid
  obtain ⟨s2, r2, q2⟩ := runs_insertF (pc := pc) (G := G) (k := "footer") (y := pre.length) (x := (l, some c.node, c.box)) (E := drawnOf pre)
    (content := some (if pc.embedGrNotes then Content.seq [some (.node l.node)] else FmxP.nodeContent pc l.node)) (st := some (FmxP.calsRowStyles pc l.node))
    (nature := some "footer") (w := b.width) (h := 1) (by simp only; omega) (by simp only; omega) hpl (by
      intro m
      unfold PlaceRead
      simp only [hg.sort, hkf, hnode]
      exact ⟨trivial, rfl, rfl⟩) s1 q1
  refine ⟨s2, ?_, ?_⟩
  · simp only [bind_run] at r1
    simp only [bind_run, FmxP.parseNotes]
    cases hn : PState.nextRow s with
    | mk r s0 =>
      rw [hn] at r1
      cases r with
      | error e => cases r1
      | ok u =>
        simp only at r1 ⊢
        rw [r1]
        simp only [get_run, h1, bind_run, lift_run, hb]
        exact r2
  · obtain ⟨t2, g1, g2, g3, g4, g5⟩ := q2
    have hE : drawnOf (pre ++ [l]) = drawnOf pre ++ [(l, some c.node, c.box)] := by simp [drawnOf, hdr]
    rw [hE]
    have hv := hpl.valid
    unfold Box.Valid at hv
    refine ⟨t2, g1, g2, g5.rowDone drawnIs_box (by omega) ?_⟩
    intro p e1 e2 e3
    obtain ⟨c', hc', hr⟩ := g5.read (l, some c.node, c.box) (by simp)
    have hst := hpl.starts
    refine ⟨c', hc', ?_⟩
    rw [hr.1]
    simp only [InBox]
    omega

theorem runs_notesF {G : Goal} {ls : List DocLine} (hp : PlanF pc G ls) :
    ∀ (g pre : List DocLine), pre ≠ [] → ls = pre ++ g → (∀ l ∈ g, NoteGood G.w l) → ((∃ e ∈ drawnOf pre, e.2.2.max.x = G.w) ∨ G.known = G.w) →
    Runs (GapF pc G (drawnOf pre) pre.length) (GapF pc G (drawnOf ls) ls.length)
      (forEach (fun n => do PState.nextRow; FmxP.parseNotes pc n) (g.map (·.node))) := by
  intro g
  induction g with
  | nil => intro pre _ hls _ _; rw [List.append_nil] at hls; subst hls; exact runs_pure
  | cons l g ih =>
    intro pre hpre hls hg hwid
    refine runs_bind (Q := GapF pc G (drawnOf (pre ++ [l])) (pre ++ [l]).length) ?_ ?_
    · have := runs_noteF hls hpre hp (hg l (by simp)) hwid
      simpa using this
    · refine ih (pre ++ [l]) (by simp) (by simpa using hls) (fun l' hl' => hg l' (by simp [hl'])) (hwid.imp ?_ id)
      rintro ⟨e, he, hx⟩
      exact ⟨e, by unfold drawnOf at he ⊢; rw [List.flatMap_append]; exact List.mem_append_left _ he, hx⟩

end Benker
