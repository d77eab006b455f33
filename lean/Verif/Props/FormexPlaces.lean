import Verif.Props.OnePlacement
import Verif.Lemmas.CalsPlaces

/-! C110: the cells of a Formex table have places, whatever the lengths of its rows. -/

namespace Benker
open PyM CalsSpec FmxSpec

/-- a node which stands for a size -/
def sizeNode (p : Nat × Nat) : Node :=
  .elem ⟨none, ""⟩ [] none [.elem ⟨none, ""⟩ [] none (List.replicate p.1 (.comment "" none)) none, .elem ⟨none, ""⟩ [] none (List.replicate p.2 (.comment "" none)) none] none

def nodeSize (n : Node) : Nat × Nat :=
  match n.children with
  | [a, b] => (a.children.length, b.children.length)
  | _ => (1, 1)

theorem nodeSize_sizeNode (p : Nat × Nat) : nodeSize (sizeNode p) = p := by
  unfold nodeSize sizeNode
  simp [Node.children]

def HasSize (p : Nat × Nat) (b : Box) : Prop := b.max.x = b.min.x + p.1 - 1 ∧ b.max.y = b.min.y + p.2 - 1

theorem all₂_of_map_eq {α β γ : Type} {R : α → β → Prop} (f : α → γ) (g : β → γ) {l : List α} {m : List β} (h : m.map g = l.map f)
    (hR : ∀ a ∈ l, ∀ b ∈ m, g b = f a → R a b) : All₂ R l m := by
  refine all₂_pointwise _ _ (by simpa using (congrArg List.length h).symm) ?_
  intro i a b ha hb
  have := congrArg (fun k => k[i]?) h
  simp only [List.getElem?_map, ha, hb, Option.map_some, Option.some.injEq] at this
  exact hR a (List.mem_of_getElem? ha) b (List.mem_of_getElem? hb) this

/-- places for rectangles whose sizes are given, line after line -/
theorem places_for (ss : List (List (Nat × Nat))) (hs : ∀ s ∈ ss, ∀ p ∈ s, 1 ≤ p.1 ∧ 1 ≤ p.2)
    (hno : ∀ (i j : Nat) (r q : List (Nat × Nat)), ss[i]? = some r → ss[j]? = some q → i < j → (∃ a ∈ r, j < i + a.2) → ∀ b ∈ q, b.1 = 1) :
    ∃ bs : List (List Box), All₂ (All₂ HasSize) ss bs ∧ (∀ (i : Nat) (r : List Box), bs[i]? = some r → ∀ b ∈ r, b.min.y = (i : Int) + 1) ∧ Leftmost bs.flatten := by
  let enc : List (Nat × Nat) → Node × DocRow := fun s => (sizeNode (1, 1), ⟨sizeNode (1, 1), s.map (fun p => ⟨sizeNode p, ⟨⟨1, 1⟩, ⟨1, 1⟩⟩⟩)⟩)
  have hget : ∀ (i : Nat) (r : Node × DocRow), (ss.map enc)[i]? = some r → ∃ s, ss[i]? = some s ∧ r = enc s := by
    intro i r h
    rw [List.getElem?_map] at h
    cases hi : ss[i]? with
    | none => rw [hi] at h; cases h
    | some s => rw [hi] at h; exact ⟨s, rfl, (Option.some.inj h).symm⟩
  have hent : ∀ (s : List (Nat × Nat)), ∀ e ∈ (enc s).2.entries, ∃ p ∈ s, nodeSize e.node = p := by
    intro s e he
    obtain ⟨p, hp, rfl⟩ := List.mem_map.mp he
    exact ⟨p, hp, nodeSize_sizeNode p⟩
  obtain ⟨rows', h1, h2, h3⟩ := placed_rows (size := nodeSize) (ss.map enc) (by
      intro r hr e he
      obtain ⟨s, hsm, rfl⟩ := List.mem_map.mp hr
      obtain ⟨p, hp, e1⟩ := hent s e he
      rw [e1]
      exact hs s hsm p hp) (by
      intro i j r q hi hj hij hex b hb
      obtain ⟨s, hsi, rfl⟩ := hget i r hi
      obtain ⟨s', hsj, rfl⟩ := hget j q hj
      obtain ⟨a, ha, hlt⟩ := hex
      obtain ⟨p, hp, e1⟩ := hent s a ha
      obtain ⟨p', hp', e2⟩ := hent s' b hb
      rw [e1] at hlt
      rw [e2]
      exact hno i j s s' hsi hsj hij ⟨p, hp, hlt⟩ p' hp') _ (Nat.le_refl _)
  rw [List.take_length] at h1
  have hflat : (rows'.map (fun r => r.2.entries.map (·.box))).flatten = (entriesOf rows').map (·.2.box) := by
    unfold entriesOf
    rw [List.map_flatMap, ← List.flatMap_def]
    simp [Function.comp_def]
  refine ⟨rows'.map (fun r => r.2.entries.map (·.box)), ?_, ?_, ?_⟩
  · refine All₂.map_right ?_
    unfold SameRows at h1
    rw [List.map_map] at h1
    refine all₂_of_map_eq _ _ h1 ?_
    intro s _ r hr e
    simp only [Function.comp, Prod.mk.injEq] at e
    refine All₂.map_right ?_
    have e2 := e.2.2
    simp only [enc, List.map_map] at e2
    refine all₂_of_map_eq _ _ e2 ?_
    intro p _ en hen e3
    have hz := h3.sizes (r.1, en) (List.mem_flatMap.mpr ⟨r, hr, List.mem_map_of_mem hen⟩)
    have e4 : nodeSize en.node = p := by
      rw [show en.node = sizeNode p from e3, nodeSize_sizeNode]
    simp only [e4] at hz
    exact hz.2.2
  · intro i r hi b hb
    rw [List.getElem?_map] at hi
    cases hr : rows'[i]? with
    | none => rw [hr] at hi; cases hi
    | some r' =>
      rw [hr] at hi
      have := Option.some.inj hi
      subst this
      obtain ⟨e, he, rfl⟩ := List.mem_map.mp hb
      exact h2 i r' hr e he
  · rw [hflat]
    refine ⟨?_, List.pairwise_map.mpr h3.disjoint, ?_⟩
    · intro b hb
      obtain ⟨e, he, rfl⟩ := List.mem_map.mp hb
      have := h3.valid e he
      have := h3.sizes e he
      omega
    · intro pre b post e x x1 x2
      obtain ⟨pre', r, e1, e2, e3⟩ := List.map_eq_append_iff.mp e
      obtain ⟨e', post', rfl, rfl, e5⟩ := List.map_eq_cons_iff.mp e3
      obtain ⟨a, ha, hin⟩ := h3.leftmost pre' e' post' e1 x x1 x2
      subst e2
      exact ⟨_, List.mem_map_of_mem ha, hin⟩

/-- number of empty places at the left of a line -/
def leftPlaces (start : Node → Nat) (l : DocLine) : Nat := if l.sort = .row then 0 else start l.node - 1

/-- the line `l'` is the line `l` whose cells have been given places -/
structure Rearranged (size : Node → Nat × Nat) (start : Node → Nat) (l l' : DocLine) : Prop where
  same : l'.sort = l.sort ∧ l'.node = l.node ∧ l'.level = l.level ∧ l'.cells.map (·.node) = l.cells.map (·.node)
  after : l'.after = []
  before : l'.before.length = leftPlaces start l
  places : ∀ b ∈ l'.before, b.max = b.min
  sizes : ∀ c ∈ l'.cells, HasSize (size c.node) c.box

theorem all₂_append_inv {α β : Type} {R : α → β → Prop} : ∀ {l l' : List α} {m : List β}, All₂ R (l ++ l') m → ∃ m1 m2, m = m1 ++ m2 ∧ All₂ R l m1 ∧ All₂ R l' m2
  | [], _, m, h => ⟨[], m, rfl, .nil, h⟩
  | _ :: l, l', _ :: m, .cons h hl => by
    obtain ⟨m1, m2, rfl, h1, h2⟩ := all₂_append_inv (l := l) hl
    exact ⟨_ :: m1, m2, rfl, .cons h h1, h2⟩

theorem all₂_cells {size : Node → Nat × Nat} : ∀ {l : List DocCell} {m : List Box}, All₂ HasSize (l.map (fun c => size c.node)) m →
    ∃ l' : List DocCell, l'.map (·.node) = l.map (·.node) ∧ l'.map (·.box) = m ∧ ∀ c ∈ l', HasSize (size c.node) c.box
  | [], _, .nil => ⟨[], rfl, rfl, by simp⟩
  | c :: l, b :: m, .cons h hl => by
    obtain ⟨l', h1, h2, h3⟩ := all₂_cells (l := l) hl
    refine ⟨⟨c.node, b⟩ :: l', by simp [h1], by simp [h2], ?_⟩
    intro x hx
    rcases List.mem_cons.mp hx with rfl | hx
    · exact h
    · exact h3 x hx

theorem rearrange (size : Node → Nat × Nat) (start : Node → Nat) (l : DocLine) (bs : List Box)
    (h : All₂ HasSize (List.replicate (leftPlaces start l) (1, 1) ++ l.cells.map (fun c => size c.node)) bs) :
    ∃ l' : DocLine, Rearranged size start l l' ∧ l'.drawn.map (·.2) = bs := by
  obtain ⟨m1, m2, rfl, h1, h2⟩ := all₂_append_inv h
  obtain ⟨cs, c1, c2, c3⟩ := all₂_cells h2
  refine ⟨⟨l.sort, l.node, l.level, m1, cs, []⟩, ⟨⟨rfl, rfl, rfl, c1⟩, rfl, ?_, ?_, c3⟩, ?_⟩
  · have := h1.length
    simpa using this.symm
  · intro b hb
    obtain ⟨p, hp, hr⟩ := h1.mem_right hb
    rw [List.eq_of_mem_replicate hp] at hr
    unfold HasSize at hr
    obtain ⟨⟨x1, y1⟩, ⟨x2, y2⟩⟩ := b
    simp only at hr
    simp only [Coord.mk.injEq]
    omega
  · simp only [DocLine.drawn, List.map_append, List.map_map, List.map_nil, List.append_nil, Function.comp_def, List.map_id']
    rw [← c2]

theorem rearrange_all (size : Node → Nat × Nat) (start : Node → Nat) : ∀ (ls : List DocLine) (bs : List (List Box)),
    All₂ (All₂ HasSize) (ls.map (fun l => List.replicate (leftPlaces start l) (1, 1) ++ l.cells.map (fun c => size c.node))) bs →
    ∃ ls', All₂ (Rearranged size start) ls ls' ∧ ls'.map (fun l => l.drawn.map (·.2)) = bs
  | [], _, .nil => ⟨[], .nil, rfl⟩
  | l :: ls, b :: bs, .cons h hl => by
    obtain ⟨l', h1, h2⟩ := rearrange size start l b h
    obtain ⟨ls', h3, h4⟩ := rearrange_all size start ls bs hl
    exact ⟨l' :: ls', .cons h1 h3, by rw [List.map_cons, h2, h4]⟩

theorem lines_same {ns cals : Option String} {level : Nat} {ls : List DocLine} {all : List Node} (h : Lines ns cals level ls all) :
    ∀ ls' : List DocLine, ls'.map (fun l => (l.node, l.level)) = ls.map (fun l => (l.node, l.level)) → Lines ns cals level ls' all := by
  induction h with
  | nil level =>
    intro ls' e
    rw [List.map_eq_nil_iff.mp e]
    exact .nil _
  | skip level n ls all hn _ ih => intro ls' e; exact .skip _ _ _ _ hn (ih ls' e)
  | line level l ls all hl _ ih =>
    intro ls' e
    obtain ⟨l', t, rfl, e1, e2⟩ := List.map_eq_cons_iff.mp e
    simp only [Prod.mk.injEq] at e1
    rw [← e1.1]
    exact .line _ _ _ _ (by rw [e1.2, hl]) (ih t e2)
  | block level n inside ls all hn _ _ ih1 ih2 =>
    intro ls' e
    rw [List.map_append] at e
    obtain ⟨a, b, rfl, e1, e2⟩ := List.map_eq_append_iff.mp e
    exact .block _ _ _ _ _ hn (ih1 a e1) (ih2 b e2)

theorem same_line {ls ls' : List DocLine} (h : ls'.map (fun l => (l.sort, l.node, l.level, l.cells.map (·.node))) = ls.map (fun l => (l.sort, l.node, l.level, l.cells.map (·.node))))
    {l' : DocLine} (hl : l' ∈ ls') : ∃ l ∈ ls, l.sort = l'.sort ∧ l.node = l'.node ∧ l.level = l'.level ∧ l.cells.map (·.node) = l'.cells.map (·.node) := by
  have := List.mem_map_of_mem (f := fun l : DocLine => (l.sort, l.node, l.level, l.cells.map (·.node))) hl
  rw [h] at this
  obtain ⟨l, h1, h2⟩ := List.mem_map.mp this
  simp only [Prod.mk.injEq] at h2
  exact ⟨l, h1, h2⟩

theorem same_fmx_nested {ns cals : Option String} {outer : Nat} {parent : Option Node} {d d' : FmxDoc} (h : d.SameElements d') (hn : d.Nested ns cals outer parent) :
    d'.Nested ns cals outer parent := by
  obtain ⟨h1, h2, h3, h4⟩ := h
  have hnodes : d'.notes.map (·.node) = d.notes.map (·.node) := by
    have := congrArg (List.map (fun p => p.2.1)) h4
    simpa [List.map_map, Function.comp_def] using this
  have hlines : d'.lines.map (fun l => (l.node, l.level)) = d.lines.map (fun l => (l.node, l.level)) := by
    have := congrArg (List.map (fun p => (p.2.1, p.2.2.1))) h3
    simpa [List.map_map, Function.comp_def] using this
  refine ⟨by rw [h1]; exact hn.corpus, ?_, by rw [h2]; exact hn.cols, ⟨by rw [h1, hnodes]; exact hn.notes.1, ?_⟩, ?_, ?_, ?_, ?_⟩
  · obtain ⟨top, bottom, e1, e2, e3⟩ := hn.inCorpus
    exact ⟨top, bottom, by rw [h1]; exact e1, by rw [h2]; exact e2, lines_same e3 _ hlines⟩
  · intro l' hl'
    obtain ⟨l, hl, e1, _⟩ := same_line h4 hl'
    rw [← e1]; exact hn.notes.2 l hl
  · intro l' hl'
    obtain ⟨l, hl, e1, e2, _⟩ := same_line h3 hl'
    rw [← e1, ← e2]; exact hn.lines l hl
  · intro l' hl' hs
    obtain ⟨l, hl, e1, e2, _, e4⟩ := same_line h3 hl'
    rw [← e1] at hs
    obtain ⟨g1, g2⟩ := hn.rows l hl hs
    refine ⟨by rw [← e2, ← e4]; exact g1, ?_⟩
    intro c' hc'
    have : c'.node ∈ l'.cells.map (·.node) := List.mem_map_of_mem hc'
    rw [← e4] at this
    obtain ⟨c, hc, e⟩ := List.mem_map.mp this
    rw [← e]; exact g2 c hc
  · intro l' hl' hs
    obtain ⟨l, hl, e1, e2, _⟩ := same_line h3 hl'
    rw [← e1] at hs
    rw [← e2]; exact hn.titles l hl hs
  · intro l' hl' hs
    have : ∃ l ∈ d.all, l.sort = l'.sort ∧ l.node = l'.node ∧ l.level = l'.level ∧ l.cells.map (·.node) = l'.cells.map (·.node) := by
      rcases List.mem_append.mp hl' with hl' | hl'
      · obtain ⟨l, hl, e⟩ := same_line h3 hl'
        exact ⟨l, List.mem_append_left _ hl, e⟩
      · obtain ⟨l, hl, e⟩ := same_line h4 hl'
        exact ⟨l, List.mem_append_right _ hl, e⟩
    obtain ⟨l, hl, e1, e2, _, e4⟩ := this
    rw [← e1] at hs
    rw [← e2, ← e4]; exact hn.whole l hl hs

/-- the notes, as wide as the table, one below the other -/
def noteLines (w : Nat) : Nat → List DocLine → List DocLine
  | _, [] => []
  | y, l :: ls => ⟨l.sort, l.node, l.level, [], l.cells.map (fun c => ⟨c.node, ⟨⟨1, (y : Int)⟩, ⟨(w : Int), (y : Int)⟩⟩⟩), []⟩ :: noteLines w (y + 1) ls

theorem noteLines_same (w : Nat) : ∀ (y : Nat) (ls : List DocLine),
    (noteLines w y ls).map (fun l => (l.sort, l.node, l.level, l.cells.map (·.node))) = ls.map (fun l => (l.sort, l.node, l.level, l.cells.map (·.node)))
  | _, [] => rfl
  | y, l :: ls => by
    rw [noteLines, List.map_cons, List.map_cons, noteLines_same w (y + 1) ls]
    simp [List.map_map, Function.comp_def]

theorem noteLines_get (w : Nat) : ∀ (y : Nat) (ls : List DocLine) (i : Nat) (l : DocLine), (noteLines w y ls)[i]? = some l →
    l.before = [] ∧ l.after = [] ∧ ∀ c ∈ l.cells, c.box = ⟨⟨1, ((y + i : Nat) : Int)⟩, ⟨(w : Int), ((y + i : Nat) : Int)⟩⟩
  | _, [], i, l, h => by simp [noteLines] at h
  | y, m :: ls, 0, l, h => by
    rw [noteLines] at h
    simp only [List.getElem?_cons_zero, Option.some.injEq] at h
    subst h
    refine ⟨rfl, rfl, ?_⟩
    intro c hc
    obtain ⟨c', _, rfl⟩ := List.mem_map.mp hc
    rfl
  | y, m :: ls, i + 1, l, h => by
    rw [noteLines] at h
    have := noteLines_get w (y + 1) ls i l h
    rw [show y + 1 + i = y + (i + 1) by omega] at this
    exact this

theorem noteLines_boxes (w : Nat) : ∀ (y : Nat) (ls : List DocLine), (∀ l ∈ ls, l.cells.length = 1) →
    ((noteLines w y ls).flatMap (fun l => l.drawn.map (·.2))).Pairwise (fun a b => a.max.y < b.min.y) ∧
    ∀ b ∈ (noteLines w y ls).flatMap (fun l => l.drawn.map (·.2)), b.min.x = 1 ∧ b.max.x = (w : Int) ∧ (y : Int) ≤ b.min.y ∧ b.max.y = b.min.y
  | _, [], _ => by simp [noteLines]
  | y, l :: ls, h => by
    obtain ⟨h1, h2⟩ := noteLines_boxes w (y + 1) ls (fun m hm => h m (List.mem_cons_of_mem _ hm))
    have hl := h l List.mem_cons_self
    obtain ⟨c, hc⟩ := List.length_eq_one_iff.mp hl
    have e : (noteLines w y (l :: ls)).flatMap (fun l => l.drawn.map (·.2)) =
        (⟨⟨1, (y : Int)⟩, ⟨(w : Int), (y : Int)⟩⟩ : Box) :: (noteLines w (y + 1) ls).flatMap (fun l => l.drawn.map (·.2)) := by
      rw [noteLines, List.flatMap_cons, hc]
      simp [DocLine.drawn]
    rw [e]
    refine ⟨List.pairwise_cons.mpr ⟨?_, h1⟩, ?_⟩
    · intro b hb
      have := h2 b hb
      simp only
      omega
    · intro b hb
      rcases List.mem_cons.mp hb with rfl | hb
      · simp
      · have := h2 b hb
        omega

theorem leftmost_append {a b : List Box} (ha : Leftmost a) (hv : ∀ x ∈ b, x.min.x = 1 ∧ 1 ≤ x.max.x ∧ x.min.y ≤ x.max.y) (hb : b.Pairwise (fun x y => x.max.y < y.min.y))
    (hab : ∀ x ∈ a, ∀ y ∈ b, x.max.y < y.min.y) : Leftmost (a ++ b) := by
  have low : ∀ x y : Box, x.max.y < y.min.y → ¬ Overlap x y := by
    rintro x y h ⟨p, h1, h2⟩
    simp only [InBox] at h1 h2
    omega
  refine ⟨?_, List.pairwise_append.mpr ⟨ha.disjoint, hb.imp (fun h => low _ _ h), fun x hx y hy => low _ _ (hab x hx y hy)⟩, ?_⟩
  · intro x hx
    rcases List.mem_append.mp hx with hx | hx
    · exact ha.valid x hx
    · have := hv x hx; omega
  · intro pre x post e z z1 z2
    rcases List.append_eq_append_iff.mp e with ⟨c, e1, e2⟩ | ⟨c, e1, e2⟩
    · have := hv x (by rw [e2]; simp)
      omega
    · cases c with
      | nil =>
        have := hv x (by simp only [List.nil_append] at e2; rw [← e2]; simp)
        omega
      | cons x' c =>
        simp only [List.cons_append, List.cons.injEq] at e2
        obtain ⟨rfl, _⟩ := e2
        exact ha.leftmost pre x c e1 z z1 z2

/-- **C110**: whenever no cell or title of several columns is in a line down to which a cell of a line above goes, and no cell goes down to the notes, the cells, the titles and the
notes have places. -/
theorem C110_places (d : FmxDoc) (ns cals : Option String) (outer : Nat) (parent : Option Node) (size : Node → Nat × Nat) (start : Node → Nat)
    (hn : d.Nested ns cals outer parent) (hs : d.Sized ns cals size start) (hno : d.NoCollision size) :
    ∃ (d' : FmxDoc) (w h : Nat), d.SameElements d' ∧ d'.Placed ns cals w ∧ d'.Width w ∧ d'.Height h := by
  have hone : ∀ l ∈ d.lines, l.sort ≠ .row → ∀ c ∈ l.cells, c.node = l.node := by
    intro l hl hr c hc
    have := hn.whole l (List.mem_append_left _ hl) hr
    have hm : c.node ∈ l.cells.map (·.node) := List.mem_map_of_mem hc
    rw [this] at hm
    simpa using hm
  have hsz : ∀ l ∈ d.lines, ∀ c ∈ l.cells, 1 ≤ (size c.node).1 ∧ 1 ≤ (size c.node).2 := by
    intro l hl c hc
    by_cases hr : l.sort = .row
    · have := hs.rows l hl hr c hc
      exact ⟨this.1, this.2.1⟩
    · have := hs.titles l hl hr
      rw [hone l hl hr c hc]
      omega
  obtain ⟨bs, b1, b2, b3⟩ := places_for (d.lines.map (fun l => List.replicate (leftPlaces start l) (1, 1) ++ l.cells.map (fun c => size c.node))) (by
      intro s hsm p hp
      obtain ⟨l, hl, rfl⟩ := List.mem_map.mp hsm
      rcases List.mem_append.mp hp with hp | hp
      · rw [List.eq_of_mem_replicate hp]; simp
      · obtain ⟨c, hc, rfl⟩ := List.mem_map.mp hp
        exact hsz l hl c hc) (by
      intro i j r q hi hj hij hex b hb
      rw [List.getElem?_map] at hi hj
      cases hli : d.lines[i]? with
      | none => rw [hli] at hi; cases hi
      | some l =>
      cases hlj : d.lines[j]? with
      | none => rw [hlj] at hj; cases hj
      | some m =>
      rw [hli] at hi
      rw [hlj] at hj
      cases Option.some.inj hi
      cases Option.some.inj hj
      obtain ⟨a, ha, hlt⟩ := hex
      rcases List.mem_append.mp hb with hb | hb
      · rw [List.eq_of_mem_replicate hb]
      · obtain ⟨c, hc, rfl⟩ := List.mem_map.mp hb
        rcases List.mem_append.mp ha with ha | ha
        · rw [List.eq_of_mem_replicate ha] at hlt
          simp only at hlt
          omega
        · obtain ⟨a', ha', rfl⟩ := List.mem_map.mp ha
          exact hno.1 i j l m hli hlj hij ⟨a', ha', hlt⟩ c hc)
  obtain ⟨ls', r1, r2⟩ := rearrange_all size start d.lines bs b1
  have hlen : ls'.length = d.lines.length := r1.length.symm
  have hback : ∀ (i : Nat) (l' : DocLine), ls'[i]? = some l' → ∃ l, d.lines[i]? = some l ∧ Rearranged size start l l' := fun i l' h => all₂_from r1 h
  have hsame : ls'.map (fun l => (l.sort, l.node, l.level, l.cells.map (·.node))) = d.lines.map (fun l => (l.sort, l.node, l.level, l.cells.map (·.node))) := by
    refine ((r1.imp ?_).map_eq).symm
    intro l l' h
    obtain ⟨h1, h2, h3, h4⟩ := h.same
    rw [h1, h2, h3, h4]
  have hflat : ls'.flatMap (fun l => l.drawn.map (·.2)) = bs.flatten := by rw [← r2, ← List.flatMap_def]
  have hrowy : ∀ (i : Nat) (l' : DocLine), ls'[i]? = some l' → ∀ e ∈ l'.drawn, e.2.min.y = (i : Int) + 1 := by
    intro i l' hi e he
    refine b2 i (l'.drawn.map (·.2)) ?_ e.2 (List.mem_map_of_mem he)
    rw [← r2, List.getElem?_map, hi]; rfl
  -- the number of columns
  obtain ⟨w, hw⟩ : ∃ w, IsMax w (ls'.flatMap (fun l => l.drawn.map (·.2.max.x)) ++ d.cols.map (fun c => (c.num : Int))) := by
    refine isMax_of ?_ ?_
    · obtain ⟨l, hl, hne⟩ := hs.first
      obtain ⟨l', hl', hr⟩ := all₂_to r1 hl
      have hne' : l'.cells ≠ [] := by
        intro e
        have := hr.same.2.2.2
        rw [e] at this
        exact hne (List.map_eq_nil_iff.mp this.symm)
      obtain ⟨c, hc⟩ := List.exists_mem_of_ne_nil _ hne'
      refine List.ne_nil_of_mem (a := c.box.max.x) (List.mem_append_left _ (List.mem_flatMap.mpr ⟨l', List.mem_of_getElem? hl', ?_⟩))
      refine List.mem_map.mpr ⟨(some c.node, c.box), ?_, rfl⟩
      exact List.mem_append_left _ (List.mem_append_right _ (List.mem_map_of_mem (f := fun c : DocCell => (some c.node, c.box)) hc))
    · intro m hm
      rcases List.mem_append.mp hm with hm | hm
      · obtain ⟨l, hl, hm⟩ := List.mem_flatMap.mp hm
        obtain ⟨e, he, rfl⟩ := List.mem_map.mp hm
        have := b3.valid e.2 (by rw [← hflat]; exact List.mem_flatMap.mpr ⟨l, hl, List.mem_map_of_mem he⟩)
        omega
      · obtain ⟨c, _, rfl⟩ := List.mem_map.mp hm
        exact Int.natCast_nonneg _
  have hw1 : 1 ≤ w := by
    obtain ⟨l, hl, hne⟩ := hs.first
    obtain ⟨l', hl', hr⟩ := all₂_to r1 hl
    have hne' : l'.cells ≠ [] := by
      intro e
      have := hr.same.2.2.2
      rw [e] at this
      exact hne (List.map_eq_nil_iff.mp this.symm)
    obtain ⟨c, hc⟩ := List.exists_mem_of_ne_nil _ hne'
    have hd : (some c.node, c.box) ∈ l'.drawn := List.mem_append_left _ (List.mem_append_right _ (List.mem_map_of_mem (f := fun c : DocCell => (some c.node, c.box)) hc))
    have h1 := hw.2 c.box.max.x (List.mem_append_left _ (List.mem_flatMap.mpr ⟨l', List.mem_of_getElem? hl', List.mem_map.mpr ⟨_, hd, rfl⟩⟩))
    have h2 := b3.valid c.box (by rw [← hflat]; exact List.mem_flatMap.mpr ⟨l', List.mem_of_getElem? hl', List.mem_map.mpr ⟨_, hd, rfl⟩⟩)
    omega
  -- the notes
  have hnotes1 : ∀ l ∈ d.notes, l.cells.length = 1 := by
    intro l hl
    have := hn.whole l (List.mem_append_right _ hl) (by rw [hn.notes.2 l hl]; decide)
    simpa using congrArg List.length this
  obtain ⟨n1, n2⟩ := noteLines_boxes w (ls'.length + 1) d.notes hnotes1
  refine ⟨⟨d.corpus, d.cols, ls', noteLines w (ls'.length + 1) d.notes⟩, w, ?_⟩
  have hdrawn : (⟨d.corpus, d.cols, ls', noteLines w (ls'.length + 1) d.notes⟩ : FmxDoc).drawn.map (·.2.2) =
      bs.flatten ++ (noteLines w (ls'.length + 1) d.notes).flatMap (fun l => l.drawn.map (·.2)) := by
    rw [← hflat, ← List.flatMap_append]
    simp [FmxDoc.drawn, FmxDoc.all, List.map_flatMap, List.map_map, Function.comp_def]
  have hleft : Leftmost ((⟨d.corpus, d.cols, ls', noteLines w (ls'.length + 1) d.notes⟩ : FmxDoc).drawn.map (·.2.2)) := by
    rw [hdrawn]
    refine leftmost_append b3 ?_ n1 ?_
    · intro x hx
      have := n2 x hx
      omega
    · intro x hx y hy
      have hy2 := n2 y hy
      have hne : d.notes ≠ [] := by
        intro e
        rw [e] at hy
        simp [noteLines] at hy
      rw [← hflat] at hx
      obtain ⟨l', hl', hx⟩ := List.mem_flatMap.mp hx
      obtain ⟨e, he, rfl⟩ := List.mem_map.mp hx
      obtain ⟨i, hi⟩ := List.getElem?_of_mem hl'
      have hy1 := hrowy i l' hi e he
      obtain ⟨l, hl, hr⟩ := hback i l' hi
      have hlt := (List.getElem?_eq_some_iff.mp hi).1
      simp only [DocLine.drawn, hr.after, List.map_nil, List.append_nil] at he
      rcases List.mem_append.mp he with he | he
      · obtain ⟨b, hb, rfl⟩ := List.mem_map.mp he
        have := hr.places b hb
        simp only at hy1 ⊢
        rw [this]
        omega
      · obtain ⟨c, hc, rfl⟩ := List.mem_map.mp he
        have hz := (hr.sizes c hc).2
        have hm : c.node ∈ l'.cells.map (·.node) := List.mem_map_of_mem hc
        rw [hr.same.2.2.2] at hm
        obtain ⟨c0, hc0, e0⟩ := List.mem_map.mp hm
        have := hno.2 hne i l hl c0 hc0
        rw [e0] at this
        simp only at hy1 ⊢
        omega
  have hplaced : (⟨d.corpus, d.cols, ls', noteLines w (ls'.length + 1) d.notes⟩ : FmxDoc).Placed ns cals w := by
    refine ⟨?_, ?_, ?_, ?_, ?_, ?_, ?_, ?_, List.pairwise_map.mp hleft.disjoint, ?_⟩
    · intro l hl
      rcases List.mem_append.mp hl with hl | hl
      · obtain ⟨i, hi⟩ := List.getElem?_of_mem hl
        obtain ⟨_, _, hr⟩ := hback i l hi
        exact hr.after
      · obtain ⟨i, hi⟩ := List.getElem?_of_mem hl
        exact (noteLines_get w _ _ i l hi).2.1
    · obtain ⟨l, hl, hne⟩ := hs.first
      obtain ⟨l', hl', hr⟩ := all₂_to r1 hl
      refine ⟨l', hl', ?_⟩
      intro e
      have := hr.same.2.2.2
      rw [e] at this
      exact hne (List.map_eq_nil_iff.mp this.symm)
    · intro i l hi e he
      simp only [FmxDoc.all] at hi
      by_cases hlt : i < ls'.length
      · rw [List.getElem?_append_left hlt] at hi
        exact hrowy i l hi e he
      · rw [List.getElem?_append_right (by omega)] at hi
        obtain ⟨g1, g2, g3⟩ := noteLines_get w _ _ _ l hi
        simp only [DocLine.drawn, g1, g2, List.map_nil, List.append_nil, List.nil_append] at he
        obtain ⟨c, hc, rfl⟩ := List.mem_map.mp he
        simp only [g3 c hc]
        omega
    · intro l' hl' hrow
      obtain ⟨i, hi⟩ := List.getElem?_of_mem hl'
      obtain ⟨l, hl, hr⟩ := hback i l' hi
      have hrow' : l.sort = .row := by rw [← hr.same.1]; exact hrow
      refine ⟨?_, ?_⟩
      · have := hr.before
        unfold leftPlaces at this
        rw [if_pos hrow'] at this
        exact List.length_eq_zero_iff.mp this
      · intro c hc
        have hm : c.node ∈ l'.cells.map (·.node) := List.mem_map_of_mem hc
        rw [hr.same.2.2.2] at hm
        obtain ⟨c0, hc0, e0⟩ := List.mem_map.mp hm
        obtain ⟨_, _, g1, g2⟩ := hs.rows l (List.mem_of_getElem? hl) hrow' c0 hc0
        rw [e0] at g1 g2
        obtain ⟨z1, z2⟩ := hr.sizes c hc
        rw [show c.box.max.x - c.box.min.x + 1 = ((size c.node).1 : Int) by omega, show c.box.max.y - c.box.min.y + 1 = ((size c.node).2 : Int) by omega]
        exact ⟨g1, g2⟩
    · intro l' hl' hrow c hc
      obtain ⟨i, hi⟩ := List.getElem?_of_mem hl'
      obtain ⟨l, hl, hr⟩ := hback i l' hi
      have hrow' : l.sort ≠ .row := by rw [← hr.same.1]; exact hrow
      have hm : c.node ∈ l'.cells.map (·.node) := List.mem_map_of_mem hc
      rw [hr.same.2.2.2] at hm
      obtain ⟨c0, hc0, e0⟩ := List.mem_map.mp hm
      have hcn : c.node = l.node := by rw [← e0]; exact hone l (List.mem_of_getElem? hl) hrow' c0 hc0
      obtain ⟨g1, g2, g3, g4, g5⟩ := hs.titles l (List.mem_of_getElem? hl) hrow'
      have hb := hr.before
      unfold leftPlaces at hb
      rw [if_neg hrow'] at hb
      obtain ⟨z1, z2⟩ := hr.sizes c hc
      rw [hcn] at z1 z2
      rw [hr.same.2.1]
      refine ⟨_, _, g4, g5, ?_, ?_, ?_⟩ <;> omega
    · intro l hl
      obtain ⟨i, hi⟩ := List.getElem?_of_mem hl
      obtain ⟨g1, g2, g3⟩ := noteLines_get w _ _ i l hi
      refine ⟨g1, ?_⟩
      intro c hc
      rw [g3 c hc]
      exact ⟨rfl, rfl, rfl⟩
    · intro l' hl'
      obtain ⟨i, hi⟩ := List.getElem?_of_mem hl'
      obtain ⟨_, _, hr⟩ := hback i l' hi
      exact hr.places
    · intro e he
      exact hleft.valid e.2.2 (List.mem_map_of_mem (f := fun e : DocLine × Option Node × Box => e.2.2) he)
    · intro pre e post he x x1 x2
      obtain ⟨a, ha, hin⟩ := hleft.leftmost (pre.map (·.2.2)) e.2.2 (post.map (·.2.2)) (by rw [he]; simp) x x1 x2
      obtain ⟨a', ha', rfl⟩ := List.mem_map.mp ha
      exact ⟨a', ha', hin⟩
  obtain ⟨h, hh⟩ : ∃ h, (⟨d.corpus, d.cols, ls', noteLines w (ls'.length + 1) d.notes⟩ : FmxDoc).Height h := by
    refine isMax_of (by simp) ?_
    intro m hm
    rcases List.mem_append.mp hm with hm | hm
    · obtain ⟨e, he, rfl⟩ := List.mem_map.mp hm
      have hv := hplaced.valid e he
      obtain ⟨l, hl, hme⟩ := List.mem_flatMap.mp he
      obtain ⟨e', he', rfl⟩ := List.mem_map.mp hme
      obtain ⟨i, hi⟩ := List.getElem?_of_mem hl
      have := hplaced.starts i l hi e' he'
      simp only at hv ⊢
      omega
    · simp only [List.mem_singleton] at hm
      subst hm
      exact Int.natCast_nonneg _
  exact ⟨h, ⟨rfl, rfl, hsame, noteLines_same w _ _⟩, hplaced, hw, hh⟩

/-- **C110**: a Formex table is never refused because its rows have not all the same length: whatever the number of cells in each row, the columns of the titles and the number of
columns told, it is read as soon as its attributes can be read, no cell or title of several columns is in a line down to which a cell of a line above goes, and no cell goes down to the
notes. -/
theorem C110_always_read (pc : FmxP.Config) (d : FmxDoc) (outer : Nat) (parent : Option Node) (size : Node → Nat × Nat) (start : Node → Nat)
    (hn : d.Nested pc.ns pc.calsNs outer parent) (hs : d.Sized pc.ns pc.calsNs size start) (hno : d.NoCollision size)
    (hc : ∃ w, d.Columns pc.calsNs w) (ha : FrameAccepted pc.calsNs d.corpus) (s : PState) :
    ∃ (t : Table Content) (d' : FmxDoc) (w h : Nat), eval (FmxP.parseTable pc outer parent d.corpus) s = .ok (some t) ∧
      d.SameElements d' ∧ d'.Placed pc.ns pc.calsNs w ∧ d'.Width w ∧ d'.Height h ∧
      (∀ p : Coord, Covered t.cells p ↔ 1 ≤ p.x ∧ p.x ≤ w ∧ 1 ≤ p.y ∧ p.y ≤ h) ∧
      (∀ e ∈ d'.drawn, ∃ c ∈ t.cells, c.box = e.2.2 ∧ Shown pc.ns pc.calsNs pc.embedGrNotes e.1 e.2.1 c) ∧
      (∀ c ∈ t.cells, (∃ e ∈ d'.drawn, c.box = e.2.2) ∨ d'.EmptyPlace pc.ns c) ∧ DisjointCells t.cells := by
  obtain ⟨d', w, h, hsame, hp, hw, hh⟩ := C110_places d pc.ns pc.calsNs outer parent size start hn hs hno
  obtain ⟨w0, hc⟩ := hc
  have hc' : d'.Columns pc.calsNs w := by
    refine ⟨by rw [hsame.2.1]; exact hc.number, ?_, by rw [hsame.2.1]; exact hc.different⟩
    intro c hcm
    have := hw.2 (c.num : Int) (List.mem_append_right _ (List.mem_map.mpr ⟨c, hcm, rfl⟩))
    rw [hsame.2.1] at hcm
    have := (hc.inside c hcm).1
    omega
  obtain ⟨t, rows, cols, h1, _, _, _, _, h2, h3, h4, h5, _⟩ := C110_formex_unequal_rows d' w h outer parent (same_fmx_nested hsame hn) hp hc' hw hh (by rw [hsame.1]; exact ha) s
  rw [hsame.1] at h1
  exact ⟨t, d', w, h, h1, hsame, hp, hw, hh, h2, h3, h4, h5⟩

/-! ### example -/

def seatCorpus : Node := .elem (qn "CORPUS") [(cq "frame", "all")] none [fragCol, fragR1, secondTitle, fragR2] none
def seatTbl : Node := .elem (qn "TBL") [] none [fragN, seatCorpus] none
def noBox : Box := ⟨⟨1, 1⟩, ⟨1, 1⟩⟩

/-- a document whose rows have one and three columns, with a title of one column beside a cell which goes down, and a note; no place is given yet -/
def seatDemo : FmxDoc :=
  ⟨seatCorpus, [⟨fragCol, 2⟩],
   [⟨.row, fragR1, 0, [], [⟨fragA, noBox⟩], []⟩,
    ⟨.title, secondTitle, 0, [], [⟨secondTitle, noBox⟩], []⟩,
    ⟨.row, fragR2, 0, [], [⟨fragB, noBox⟩, ⟨fragC, noBox⟩], []⟩],
   [⟨.note, fragN, 0, [], [⟨fragN, noBox⟩], []⟩]⟩

def seatSize (n : Node) : Nat × Nat :=
  (if n.attr (qn "COLSPAN") = none then 1 else 2, if n.attr (qn "ROWSPAN") = none then 1 else 2)

theorem seatDemo_nested : seatDemo.Nested none (some "c") 0 (some seatTbl) := by
  have no : ∀ n : Node, (∀ tk ∈ toksList [n], (match tk with
    | .opening t _ => decide (t.name ∉ ["CORPUS", "ROW", "CELL", "MARGIN", "BLK", "TI.BLK", "STI.BLK", "colspec"])
    | _ => true) = true) → NoFmx none (some "c") [n] := fun n h => noFmx_of h
  refine ⟨rfl, ⟨[fragCol], [fragR1, secondTitle, fragR2], rfl, .take _ _ _ .nil, ?_⟩, ?_, ⟨?_, ?_⟩, ?_, ?_, ?_, ?_⟩
  · refine .line 0 ⟨.row, fragR1, 0, [], _, []⟩ _ _ rfl ?_
    refine .line 0 ⟨.title, secondTitle, 0, _, _, []⟩ _ _ rfl ?_
    exact .line 0 ⟨.row, fragR2, 0, [], _, _⟩ _ _ rfl (.nil 0)
  · intro c hc
    simp only [seatDemo, List.mem_cons, List.not_mem_nil, or_false] at hc
    rcases hc with rfl; exact ⟨rfl, noFmx_of (by decide +kernel)⟩
  · exact .inr ⟨seatTbl, [fragN], [], rfl, rfl, by decide +kernel, rfl⟩
  · decide +kernel
  · decide +kernel
  · intro l hl hs
    simp only [seatDemo, List.mem_cons, List.not_mem_nil, or_false] at hl
    rcases hl with rfl | rfl | rfl
    · refine ⟨.take _ _ _ .nil, ?_⟩
      intro c hc
      simp only [List.mem_cons, List.not_mem_nil, or_false] at hc
      rcases hc with rfl; exact ⟨rfl, noFmx_of (by decide +kernel)⟩
    · cases hs
    · refine ⟨.take _ _ _ (.skip _ _ _ (no _ (by decide +kernel)) (.take _ _ _ .nil)), ?_⟩
      intro c hc
      simp only [List.mem_cons, List.not_mem_nil, or_false] at hc
      rcases hc with rfl | rfl <;> exact ⟨rfl, noFmx_of (by decide +kernel)⟩
  · intro l hl hs
    simp only [seatDemo, List.mem_cons, List.not_mem_nil, or_false] at hl
    rcases hl with rfl | rfl | rfl
    · exact absurd rfl hs
    · exact noFmx_of (by decide +kernel)
    · exact absurd rfl hs
  · intro l hl hs
    simp only [seatDemo, FmxDoc.all, List.cons_append, List.nil_append, List.mem_cons, List.not_mem_nil, or_false] at hl
    rcases hl with rfl | rfl | rfl | rfl
    · exact absurd rfl hs
    · rfl
    · exact absurd rfl hs
    · rfl

theorem seatDemo_sized : seatDemo.Sized none (some "c") seatSize (fun _ => 2) := by
  have plain : ToldNumber none 1 1 := .inl ⟨rfl, rfl⟩
  have two : ToldNumber (some "2") 1 2 := .inr ⟨"2", rfl, isNumber_ascii (by decide) (by decide)⟩
  refine ⟨⟨_, rfl, by simp⟩, ?_, ?_⟩
  · intro l hl hs c hc
    simp only [seatDemo, List.mem_cons, List.not_mem_nil, or_false] at hl
    rcases hl with rfl | rfl | rfl
    · simp only [List.mem_cons, List.not_mem_nil, or_false] at hc
      rcases hc with rfl
      exact ⟨by decide +kernel, by decide +kernel, ⟨1, plain, .inr ⟨.inl rfl, rfl⟩⟩, ⟨2, two, .inr ⟨rfl, rfl⟩⟩⟩
    · cases hs
    · simp only [List.mem_cons, List.not_mem_nil, or_false] at hc
      rcases hc with rfl | rfl
      · exact ⟨by decide +kernel, by decide +kernel, ⟨1, plain, .inr ⟨.inl rfl, rfl⟩⟩, ⟨1, plain, .inr ⟨rfl, rfl⟩⟩⟩
      · exact ⟨by decide +kernel, by decide +kernel, ⟨2, two, .inr ⟨.inl rfl, rfl⟩⟩, ⟨1, plain, .inr ⟨rfl, rfl⟩⟩⟩
  · intro l hl hs
    simp only [seatDemo, List.mem_cons, List.not_mem_nil, or_false] at hl
    rcases hl with rfl | rfl | rfl
    · exact absurd rfl hs
    · exact ⟨by decide +kernel, by decide +kernel, by decide +kernel, two, two⟩
    · exact absurd rfl hs

/-- the hypotheses of `C110_places` and `C110_always_read` hold of this document -/
theorem seatDemo_good : seatDemo.Nested none (some "c") 0 (some seatTbl) ∧ seatDemo.Sized none (some "c") seatSize (fun _ => 2) ∧ seatDemo.NoCollision seatSize ∧
    (∃ w, seatDemo.Columns (some "c") w) ∧ FrameAccepted (some "c") seatDemo.corpus := by
  refine ⟨seatDemo_nested, seatDemo_sized, ⟨?_, ?_⟩, ⟨2, ?_, by decide +kernel, by decide +kernel⟩, ?_⟩
  · intro i j l m hl hm hij hex
    have hj : j < 3 := (List.getElem?_eq_some_iff.mp hm).1
    have : (i = 0 ∧ j = 1) ∨ (i = 0 ∧ j = 2) ∨ (i = 1 ∧ j = 2) := by omega
    rcases this with ⟨rfl, rfl⟩ | ⟨rfl, rfl⟩ | ⟨rfl, rfl⟩ <;> cases hl <;> cases hm
    · decide +kernel
    · exact absurd hex (by decide +kernel)
    · exact absurd hex (by decide +kernel)
  · intro _ i l hl
    have hi : i < 3 := (List.getElem?_eq_some_iff.mp hl).1
    have : i = 0 ∨ i = 1 ∨ i = 2 := by omega
    rcases this with rfl | rfl | rfl <;> cases hl <;> decide +kernel
  · intro i c hi
    have hlt : i < 1 := (List.getElem?_eq_some_iff.mp hi).1
    obtain rfl : i = 0 := by omega
    cases hi
    exact .inr ⟨"2", rfl, isNumber_ascii (by decide) (by decide)⟩
  · intro f hf _
    cases hf; decide

end Benker
