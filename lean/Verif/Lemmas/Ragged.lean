import Verif.Lemmas.CalsDoc
import Verif.Props.CalsDoc

/-! Tables whose rows have not all the same length: what the parsers make of them, whatever the format.  `ι` is the type of what is put in the table, `bx` its
place and `R` what must be read of it. -/

namespace Benker
open PyM Cals CalsSpec

variable {ι : Type} {bx : ι → Box} {R : ι → Cell Content → Prop}

/-! ### one more cell -/

/-- a cell is put where there is room -/
theorem put_ok {δ : Type} {t : Table δ} (hi : t.Inv) {key : PyVal} {new : Cell δ} (hkey : Coord.fromValue key = .ok new.box.min) (hv : new.box.Valid)
    (hno : ∀ d ∈ t.grid.cells, ¬ Overlap d.box new.box) {B : Axis → Nat} (hW : ∀ ax, (t.baseViews ax).length ≤ B ax)
    (hx : ∀ ax, lastLine ax new ≤ B ax) :
    ∃ t', Table.setItem key new t = (.ok (), t') ∧ t'.Inv ∧ (∀ d, d ∈ t'.grid.cells ↔ d = new ∨ d ∈ t.grid.cells) ∧ GrowsLooks t t' ∧
      (∀ ax, (t'.baseViews ax).length ≤ B ax) ∧ t'.styles = t.styles ∧ t'.nature = t.nature := by
  have hv' := hv
  unfold Box.Valid at hv'
  have hself : movedTo new new.box.min = new := by
    cases new with
    | mk a b d e =>
      simp only [movedTo, Cell.mk.injEq, true_and]
      apply box_ext <;> simp only at * <;> omega
  have hno' : ∀ d ∈ t.grid.cells, d.box.intersect new.box = false := by
    intro d hd
    rw [Bool.eq_false_iff]
    intro hx
    exact hno d hd (intersect_overlap hx (hi.grid.valid d hd) hv)
  have hgrow := setItem_grows hi key new hv
  rcases Table.setItem_run hi key new hv with ⟨e, h1, h2⟩ | ⟨p, g', hp, hs, hr⟩
  · exfalso
    rcases setItem_cases key new hv t.grid with ⟨_, h3⟩ | ⟨p, h3, ⟨hneg, _⟩ | ⟨_, ⟨⟨d, hd, hx⟩, _⟩ | ⟨_, h4⟩⟩⟩
    · rw [hkey] at h3; cases h3
    · rw [hkey] at h3; cases h3; exact hneg (by omega)
    · rw [hkey] at h3; cases h3; rw [hself] at hx; rw [hno' d hd] at hx; cases hx
    · rw [h4] at h1; cases h1
  · rw [hkey] at hp; cases hp
    rw [hself] at hr
    have hinv' : (exec (Table.setItem key new) t).Inv := Table.setItem_tinv hi _ new hv
    unfold exec at hinv'
    rw [hr] at hinv' hgrow
    obtain ⟨_, new', e1, hn', _, _, _, hmem, hg'⟩ := setItem_ok_facts hi.grid hv hs
    rw [hkey] at e1; cases e1
    rw [hself] at hn'
    subst hn'
    have hbc : ∀ ax, (({ t with grid := g' } : Table δ).baseViews ax).length ≤ B ax := by
      intro ax
      rcases Option.eq_none_or_eq_some (t.getViews ax) with hcv | ⟨cvs, hcv⟩
      case inr =>
        have e1 : ({ t with grid := g' } : Table δ).baseViews ax = t.baseViews ax := by
          rw [base_of_some hcv]
          exact base_of_some (by cases ax <;> exact hcv)
        rw [e1]; exact hW ax
      case inl =>
        have e1 : ({ t with grid := g' } : Table δ).baseViews ax = (Views.fit (lastLineOf ax g') true []).map (refreshed ax g'.cells) := by
          have hcv' : ({ t with grid := g' } : Table δ).getViews ax = none := by cases ax <;> exact hcv
          unfold Table.baseViews
          rw [hcv']; rfl
        rw [e1, List.length_map]
        obtain ⟨_, h0, h1, _⟩ := lastLineOf_spec ax g' hg'
        have e2 : ((Views.fit (lastLineOf ax g') true ([] : List (View δ))).length : Int) = lastLineOf ax g' := fit_true_length _ h0 _
        obtain ⟨d, hd, he⟩ := h1 (by intro e; have := (hmem new').mpr (.inl rfl); rw [e] at this; cases this)
        have : lastLine ax d ≤ B ax := by
          rcases (hmem d).mp hd with hd | hd
          · subst hd; exact hx ax
          · have := (Table.base_describes hi ax).enough d hd
            have := hW ax
            omega
        omega
    refine ⟨_, hr, hinv', hmem, hgrow, ?_, rfl, rfl⟩
    intro ax
    have hlc := adopted_length ax new' (({ t with grid := g' } : Table δ).baseViews ax)
    have := hbc ax
    have := hx ax
    cases ax with
    | row =>
      show (Table.adoptedViews .row new' _).length ≤ B .row
      omega
    | col =>
      show (Table.adoptedViews .col new' _).length ≤ B .col
      omega

/-- the holes of some places are filled -/
theorem fill_ok {δ : Type} (content : Option δ) (nature : Option String) {B : Axis → Nat} : ∀ (L : List Coord) (t : Table δ), t.Inv →
    (∀ p ∈ L, 1 ≤ p.x ∧ 1 ≤ p.y ∧ p.x ≤ B .col ∧ p.y ≤ B .row) → (∀ ax, (t.baseViews ax).length ≤ B ax) →
    ∃ t', forEach (Table.fillOne content none nature) L t = (.ok (), t') ∧ t'.Inv ∧ (∀ d, d ∈ t.grid.cells → d ∈ t'.grid.cells) ∧
      (∀ d ∈ t'.grid.cells, d ∈ t.grid.cells ∨ ∃ p ∈ L, ¬ Covered t.grid.cells p ∧ d = ⟨content, [], nature, ⟨p, p⟩⟩) ∧
      (∀ p ∈ L, Covered t'.grid.cells p) ∧ GrowsLooks t t' ∧ (∀ ax, (t'.baseViews ax).length ≤ B ax) ∧ t'.styles = t.styles ∧ t'.nature = t.nature := by
  intro L
  induction L with
  | nil => intro t h _ hW; exact ⟨t, rfl, h, fun _ h => h, fun _ h => .inl h, by simp, grows_refl t, hW, rfl, rfl⟩
  | cons p L ih =>
    intro t h hL hW
    have hp := hL p (by simp)
    have step : ∃ t1, Table.fillOne content none nature p t = (.ok (), t1) ∧ t1.Inv ∧ (∀ d, d ∈ t.grid.cells → d ∈ t1.grid.cells) ∧
        (∀ d ∈ t1.grid.cells, d ∈ t.grid.cells ∨ ¬ Covered t.grid.cells p ∧ d = ⟨content, [], nature, ⟨p, p⟩⟩) ∧ Covered t1.grid.cells p ∧
        GrowsLooks t t1 ∧ (∀ ax, (t1.baseViews ax).length ≤ B ax) ∧ t1.styles = t.styles ∧ t1.nature = t.nature := by
      rw [Table.fillOne_run]
      by_cases hh : t.grid.hasCoord p = true
      · rw [if_pos hh]
        exact ⟨t, rfl, h, fun _ h => h, fun _ h => .inl h, (hasCoord_grid _ _).mp hh, grows_refl t, hW, rfl, rfl⟩
      · rw [if_neg hh]
        have hfree : ¬ Covered t.grid.cells p := fun hc => hh ((hasCoord_grid _ _).mpr hc)
        have hnew : Cell.new content none nature p.x p.y = .ok ⟨content, [], nature, ⟨p, p⟩⟩ := by
          rw [cell_new_ok _ _ _ (by omega)]
          congr 2
          apply box_ext <;> simp only <;> omega
        rw [hnew]
        obtain ⟨t1, r1, i1, m1, g1, w1, s1, n1⟩ := put_ok h (key := .tuple [.int p.x, .int p.y]) (new := ⟨content, [], nature, ⟨p, p⟩⟩) rfl
          (by unfold Box.Valid; simp only; omega) (by
            rintro d hd ⟨q, h1, h2⟩
            refine hfree ⟨d, hd, ?_⟩
            have : q = p := by simp only [InBox] at h2; cases q; cases p; simp only [Coord.mk.injEq] at *; omega
            rw [← this]; exact h1) hW (by
            intro ax; cases ax
            · show p.y ≤ B .row; omega
            · show p.x ≤ B .col; omega)
        exact ⟨t1, r1, i1, fun d hd => (m1 d).mpr (.inr hd), fun d hd => ((m1 d).mp hd).symm.imp id (fun e => ⟨hfree, e⟩),
          ⟨_, (m1 _).mpr (.inl rfl), by simp only [InBox]; omega⟩, g1, w1, s1, n1⟩
    obtain ⟨t1, r1, i1, k1, o1, c1, g1, w1, s1, n1⟩ := step
    obtain ⟨t2, r2, i2, k2, o2, c2, g2, w2, s2, n2⟩ := ih t1 i1 (fun q hq => hL q (by simp [hq])) w1
    refine ⟨t2, ?_, i2, fun d hd => k2 d (k1 d hd), ?_, ?_, grows_trans g1 g2, w2, s2.trans s1, n2.trans n1⟩
    · show PyM.bind _ _ t = _
      unfold PyM.bind; rw [r1]; exact r2
    · intro d hd
      rcases o2 d hd with hd | ⟨q, hq, hn, e⟩
      · rcases o1 d hd with hd | ⟨hn, e⟩
        · exact .inl hd
        · exact .inr ⟨p, by simp, hn, e⟩
      · exact .inr ⟨q, by simp [hq], fun ⟨c, hc, hin⟩ => hn ⟨c, k1 c hc, hin⟩, e⟩
    · intro q hq
      rcases List.mem_cons.mp hq with hq | hq
      · subst hq
        obtain ⟨c, hc, hin⟩ := c1
        exact ⟨c, k2 c hc, hin⟩
      · exact c2 q hq

/-! ### the state of the table -/

/-- a cell which fills a hole -/
def AddedCell (c : Cell Content) : Prop := c.content = none ∧ c.styles = [] ∧ c.box.max = c.box.min

/-- the greatest numbers of rows and of columns -/
def Goal.bound (G : Goal) : Axis → Nat
  | .row => G.h
  | .col => G.w

/-- a place in a column which is known when its row ends -/
def Reach (bx : ι → Box) (G : Goal) (E : List ι) (p : Coord) : Prop := p.x ≤ G.known ∨ ∃ e ∈ E, (bx e).min.y ≤ p.y ∧ p.x ≤ (bx e).max.x

/-- an empty cell with the kind of its row -/
def AddedInRow (bx : ι → Box) (G : Goal) (E : List ι) (f : Nat) (c : Cell Content) : Prop :=
  c.box.min.y ≤ f ∧ (∃ st, G.rowOK (c.box.min.y - 1).toNat c.nature st) ∧ Reach bx G E c.box.min

theorem AddedInRow.mono {G : Goal} {E E' : List ι} {f f' : Nat} {c : Cell Content} (h : AddedInRow bx G E f c) (hE : ∀ e ∈ E, e ∈ E') (hf : f ≤ f') :
    AddedInRow bx G E' f' c := by
  obtain ⟨h1, h2, h3⟩ := h
  refine ⟨by omega, h2, ?_⟩
  rcases h3 with h3 | ⟨e, he, h3⟩
  · exact .inl h3
  · exact .inr ⟨e, hE e he, h3⟩

/-- state of the table: the entries `E` are read, `y` rows are started, `f` rows are finished -/
structure Rag (bx : ι → Box) (R : ι → Cell Content → Prop) (G : Goal) (E : List ι) (y f : Nat) (t : Table Content) : Prop where
  inv : t.Inv
  read : ∀ e ∈ E, ∃ c ∈ t.grid.cells, R e c
  only : ∀ c ∈ t.grid.cells, (∃ e ∈ E, R e c) ∨ (AddedCell c ∧ AddedInRow bx G E f c)
  same : t.styles = G.styles ∧ t.nature = G.nature
  lines : ∀ ax, (t.baseViews ax).length ≤ G.bound ax
  colLooks : ∀ i, i < G.known → ∃ vs v, t.cols = some vs ∧ vs[i]? = some v ∧ G.colOK i v.styles
  rowLooks : ∀ i, i < y → ∃ vs v, t.rows = some vs ∧ vs[i]? = some v ∧ G.rowOK i v.nature v.styles
  filled : ∀ p : Coord, 1 ≤ p.x → (Reach bx G E p ∨ p.x = 1) → 1 ≤ p.y → p.y ≤ f → Covered t.grid.cells p
  early : ∀ e ∈ E, (bx e).min.y ≤ y
  wide : (t.baseViews .col).length ≤ G.known ∨ ∃ e ∈ E, ((t.baseViews .col).length : Int) ≤ (bx e).max.x

theorem grows_look {t t' : Table Content} (h : GrowsLooks t t') {ax : Axis} {i : Nat} {P : Option String → Styles → Prop}
    (hl : ∃ vs v, t.getViews ax = some vs ∧ vs[i]? = some v ∧ P v.nature v.styles) :
    ∃ vs v, t'.getViews ax = some vs ∧ vs[i]? = some v ∧ P v.nature v.styles := by
  obtain ⟨vs, v, h1, h2, h3⟩ := hl
  obtain ⟨vs', e1, e2, e3⟩ := h ax vs h1
  have hlt := (List.getElem?_eq_some_iff.mp h2).1
  refine ⟨vs', vs'[i], e1, List.getElem?_eq_getElem (by omega), ?_⟩
  obtain ⟨e4, e5⟩ := (e2 i _ (List.getElem?_eq_getElem (by omega))).1 v h2
  rw [e4, e5]; exact h3

/-- the place of an entry, after the entries `E` -/
structure PlaceFor (bx : ι → Box) (G : Goal) (E : List ι) (y : Nat) (b : Box) : Prop where
  valid : b.Valid
  starts : b.min.y = y
  inside : b.max.x ≤ G.w ∧ b.max.y ≤ G.h
  free : ∀ e ∈ E, ¬ Overlap (bx e) b
  leftmost : ∀ x : Int, 1 ≤ x → x < b.min.x → ∃ a ∈ E, InBox ⟨x, b.min.y⟩ (bx a)

theorem Rag.insert {G : Goal} {E : List ι} {f : Nat} {t : Table Content} (hR : ∀ e c, R e c → c.box = bx e) (ht : Rag bx R G E (f + 1) f t) {x : ι} {e : Box} (hbx : bx x = e) {content : Option Content} {st : Option Styles}
    {nature : Option String} (hx : ∀ m, R x ⟨content, st.getD [], nature.or m, e⟩) (hp : PlaceFor bx G E (f + 1) e) :
    ∃ t', Table.insertCell .row ((f + 1 : Nat) : Int) content st nature
        (e.max.x - e.min.x + 1) (e.max.y - e.min.y + 1) t = (.ok (), t') ∧ Rag bx R G (E ++ [x]) (f + 1) f t' := by
  have hv := hp.valid
  unfold Box.Valid at hv
  have hst := hp.starts
  obtain ⟨j, hff, he⟩ := insertCell_eq ht.inv .row ((f + 1 : Nat) : Int) (by omega) content
    st nature (e.max.x - e.min.x + 1) (e.max.y - e.min.y + 1)
  have hff' : FirstFree .row ((f + 1 : Nat) : Int) t.grid.cells e.min.x := by
    refine ⟨hv.1, ?_, ?_⟩
    · rintro ⟨c, hc, hin⟩
      simp only [Axis.coord] at hin
      rcases ht.only c hc with ⟨a, ha, hr⟩ | ⟨⟨_, _, h3⟩, h4, _⟩
      · refine hp.free a ha ⟨_, by rw [(hR _ _ hr)] at hin; exact hin, ?_⟩
        simp only [InBox]; omega
      · simp only [InBox, h3] at hin; omega
    · intro x h1 h2
      obtain ⟨a, ha, hin⟩ := hp.leftmost x h1 h2
      obtain ⟨c, hc, hr⟩ := ht.read a ha
      refine ⟨c, hc, ?_⟩
      rw [(hR _ _ hr)]
      simp only [Axis.coord]
      rw [hst] at hin
      exact hin
  have hj := firstFree_unique hff hff'
  subst hj
  rw [cell_new_ok _ _ _ (by simp only [Axis.coord]; omega)] at he
  simp only [Axis.coord] at he
  have hbox : (⟨⟨e.min.x, ((f + 1 : Nat) : Int)⟩, ⟨e.min.x + (e.max.x - e.min.x + 1) - 1,
      ((f + 1 : Nat) : Int) + (e.max.y - e.min.y + 1) - 1⟩⟩ : Box) = e := by
    apply box_ext <;> simp only <;> omega
  rw [hbox] at he
  have hvr := Table.viewAt_run ht.inv .row ((f + 1 : Nat) : Int)
  have hvi := Table.viewAt_tinv ht.inv .row ((f + 1 : Nat) : Int)
  have hvg := viewAt_grows ht.inv .row ((f + 1 : Nat) : Int)
  rw [show (Table.viewAt .row ((f + 1 : Nat) : Int) t).2 = exec (Table.viewAt .row ((f + 1 : Nat) : Int)) t from rfl] at hvg
  have hgr : (exec (Table.viewAt .row ((f + 1 : Nat) : Int)) t).grid = t.grid := by unfold exec; rw [hvr]; exact Table.grid_setViews _ _ _
  have hbc : ∀ ax, ((exec (Table.viewAt .row ((f + 1 : Nat) : Int)) t).baseViews ax).length ≤
      (match ax with | .row => G.h | .col => max (t.baseViews .col).length e.max.x.toNat) := by
    intro ax
    unfold exec; rw [hvr]; simp only
    cases ax with
    | row =>
      rw [Table.baseViews_setViews]
      have h1 := grow_length ((f + 1 : Nat) : Int) (t.baseViews .row)
      have h2 := ht.lines .row
      have h3 := hp.inside.2
      simp only [Goal.bound] at h2 ⊢
      omega
    | col =>
      rw [Table.baseViews_setViews_ne (by decide)]
      simp only
      omega
  have hs1 : (exec (Table.viewAt .row ((f + 1 : Nat) : Int)) t).styles = t.styles ∧ (exec (Table.viewAt .row ((f + 1 : Nat) : Int)) t).nature = t.nature := by
    unfold exec; rw [hvr]; exact ⟨rfl, rfl⟩
  generalize exec (Table.viewAt .row ((f + 1 : Nat) : Int)) t = t1 at he hvi hvg hgr hbc hs1
  have hcoord : (⟨e.min.x, ((f + 1 : Nat) : Int)⟩ : Coord) = e.min := by rw [← hst]
  rw [hcoord] at he
  generalize hnew : (⟨content, st.getD [],
    nature.or (viewNature t .row ((f + 1 : Nat) : Int)), e⟩ : Cell Content) = new at he
  have hnb : new.box = e := by rw [← hnew]
  have hrd : R x new := by
    rw [← hnew]
    exact hx _
  obtain ⟨t', r1, i1, m1, g1, w1, s1, n1⟩ := put_ok hvi (B := fun ax => match ax with | .row => G.h | .col => max (t.baseViews .col).length e.max.x.toNat) (key := .coord e.min) (new := new) (by rw [hnb]; rfl) (by rw [hnb]; exact hp.valid) (by
    intro d hd
    rw [hgr] at hd
    rw [hnb]
    rcases ht.only d hd with ⟨a, ha, hr⟩ | ⟨⟨_, _, h3⟩, h4, _⟩
    · rw [(hR _ _ hr)]; exact hp.free a ha
    · rintro ⟨q, h5, h6⟩
      simp only [InBox, h3] at h5 h6; omega) hbc (by
      intro ax; cases ax
      · simp only [lastLine, Cell.max, hnb]; exact hp.inside.2
      · simp only [lastLine, Cell.max, hnb]; omega)
  rw [hgr] at m1
  have hg := grows_trans hvg g1
  refine ⟨t', he.trans r1, i1, ?_, ?_, ⟨s1.trans (hs1.1.trans ht.same.1), n1.trans (hs1.2.trans ht.same.2)⟩, ?_, ?_, ?_, ?_, ?_, ?_⟩
  · intro a ha
    rcases List.mem_append.mp ha with ha | ha
    · obtain ⟨c, hc, hr⟩ := ht.read a ha
      exact ⟨c, (m1 c).mpr (.inr hc), hr⟩
    · rw [List.mem_singleton] at ha; subst ha
      exact ⟨new, (m1 new).mpr (.inl rfl), hrd⟩
  · intro c hc
    rcases (m1 c).mp hc with hc | hc
    · subst hc; exact .inl ⟨x, by simp, hrd⟩
    · rcases ht.only c hc with ⟨a, ha, hr⟩ | h
      · exact .inl ⟨a, by simp [ha], hr⟩
      · exact .inr ⟨h.1, h.2.mono (fun a ha => by simp [ha]) (Nat.le_refl _)⟩
  · intro ax
    have h1 := w1 ax
    have h2 := ht.lines .col
    have h3 := hp.inside.1
    cases ax <;> simp only [Goal.bound] at h1 h2 ⊢ <;> omega
  · intro i hi
    exact grows_look hg (ax := .col) (P := fun _ s => G.colOK i s) (ht.colLooks i hi)
  · intro i hi
    exact grows_look hg (ax := .row) (P := G.rowOK i) (ht.rowLooks i hi)
  · intro p h1 h2 h3 h4
    obtain ⟨c, hc, hin⟩ := ht.filled p h1 (by
      rcases h2 with (h2 | ⟨a, ha, h5, h6⟩) | h2
      · exact .inl (.inl h2)
      · rcases List.mem_append.mp ha with ha | ha
        · exact .inl (.inr ⟨a, ha, h5, h6⟩)
        · rw [List.mem_singleton] at ha; subst ha
          rw [hbx] at h5
          omega
      · exact .inr h2) h3 h4
    exact ⟨c, (m1 c).mpr (.inr hc), hin⟩
  · intro a ha
    rcases List.mem_append.mp ha with ha | ha
    · exact ht.early a ha
    · rw [List.mem_singleton] at ha; subst ha
      rw [hbx]
      omega
  · have h1 := w1 .col
    simp only at h1
    by_cases hc : (t.baseViews .col).length ≤ e.max.x.toNat
    · exact .inr ⟨x, by simp, by rw [hbx]; omega⟩
    · rcases ht.wide with h2 | ⟨a, ha, h2⟩
      · exact .inl (by omega)
      · exact .inr ⟨a, by simp [ha], by omega⟩

/-- the start of a row -/
theorem Rag.startRow {G : Goal} {E : List ι} {y : Nat} {t : Table Content} (ht : Rag bx R G E y y t) (f : View Content → View Content)
    (hf : Table.LooksOnly f) (hyh : y + 1 ≤ G.h) (hn : ∀ v, G.rowOK y (f v).nature (f v).styles) :
    ∃ t', Table.editView .row ((y : Int) + 1) f t = (.ok (), t') ∧ Rag bx R G E (y + 1) y t' := by
  have hl := grow_length ((y : Int) + 1) (t.baseViews .row)
  have hup := updateAt_pos y f (Views.grow ((y : Int) + 1) (t.baseViews .row)) (by omega)
  have e : ((y : Int) + 1 - 1) = (y : Int) := by omega
  have hr := Table.editView_run ht.inv .row ((y : Int) + 1) f
  rw [e, hup] at hr
  simp only at hr
  refine ⟨_, hr, ?_⟩
  have hinv' := Table.editView_tinv ht.inv .row ((y : Int) + 1) f hf
  unfold exec at hinv'
  rw [hr] at hinv'
  refine ⟨hinv', ht.read, ht.only, ht.same, ?_, ht.colLooks, ?_, ht.filled, fun e he => by have := ht.early e he; omega, by
    rw [Table.baseViews_setViews_ne (by decide)]; exact ht.wide⟩
  · intro ax
    cases ax with
    | row =>
      rw [Table.baseViews_setViews, List.length_modify]
      have h2 := ht.lines .row
      simp only [Goal.bound] at h2 ⊢
      omega
    | col =>
      rw [Table.baseViews_setViews_ne (by decide)]
      exact ht.lines .col
  intro i hi
  refine ⟨_, _, rfl, List.getElem?_eq_getElem (by rw [List.length_modify]; omega), ?_⟩
  rw [List.getElem_modify]
  by_cases hiy : y = i
  · subst hiy
    simp only [if_true]
    exact hn _
  · simp only [if_neg hiy]
    obtain ⟨vs, v, h1, h2, h3⟩ := ht.rowLooks i (by omega)
    obtain ⟨hlt, rfl⟩ := List.getElem?_eq_some_iff.mp h2
    have hb : t.baseViews .row = vs := by show (t.rows).getD _ = _; rw [h1]; rfl
    rw [grow_getElem, dif_pos (by rw [hb]; exact hlt)]
    simp only [hb]
    exact h3

/-- the end of a row -/
theorem Rag.endRow {G : Goal} {E : List ι} {y : Nat} {t : Table Content} (hR : ∀ e c, R e c → c.box = bx e) (ht : Rag bx R G E (y + 1) y t) (hE : E ≠ []) (hyh : y + 1 ≤ G.h) (nature : Option String)
    (hnat : ∃ st, G.rowOK y nature st) :
    1 ≤ (t.baseViews .col).length ∧ ∃ t', Table.fillMissing ⟨⟨1, ((y + 1 : Nat) : Int)⟩, ⟨((t.baseViews .col).length : Int), ((y + 1 : Nat) : Int)⟩⟩ none none nature
        (t.setViews .col (t.baseViews .col)) = (.ok (), t') ∧ Rag bx R G E (y + 1) (y + 1) t' := by
  have hd := Table.base_describes ht.inv .col
  have hlen : 1 ≤ (t.baseViews .col).length := by
    obtain ⟨e, he⟩ := List.exists_mem_of_ne_nil E hE
    obtain ⟨c, hc, _⟩ := ht.read e he
    have h1 := ht.inv.grid.valid c hc
    have h2 := hd.enough c hc
    unfold Box.Valid at h1
    simp only [lastLine, Cell.max] at h2
    omega
  refine ⟨hlen, ?_⟩
  have hi : (t.setViews .col (t.baseViews .col)).Inv := Table.inv_setViews ht.inv .col _ hd
  have hg : GrowsLooks t (t.setViews .col (t.baseViews .col)) := setViews_grows .col _ (fun vs hvs => by
    rw [base_of_some hvs]; exact ⟨keeps_refl vs, Nat.le_refl _⟩)
  have hgr : (t.setViews .col (t.baseViews .col)).grid = t.grid := Table.grid_setViews _ _ _
  obtain ⟨t', r1, i1, k1, o1, c1, g1, w1, s1, n1⟩ := fill_ok (none : Option Content) nature
    (B := fun ax => match ax with | .row => G.h | .col => (t.baseViews .col).length) (Table.boxCoords ⟨⟨1, ((y + 1 : Nat) : Int)⟩, ⟨((t.baseViews .col).length : Int), ((y + 1 : Nat) : Int)⟩⟩) (t.setViews .col (t.baseViews .col)) hi (by
      intro p hp
      rw [mem_boxCoords] at hp
      simp only [InBox] at hp ⊢
      omega) (by
      intro ax
      cases ax with
      | row => rw [Table.baseViews_setViews_ne (by decide)]; exact ht.lines .row
      | col => rw [Table.baseViews_setViews])
  rw [hgr] at k1 o1
  have hg2 := grows_trans hg g1
  refine ⟨t', r1, i1, ?_, ?_, ⟨s1.trans ht.same.1, n1.trans ht.same.2⟩, ?_, ?_, ?_, ?_, fun e he => ht.early e he, ?_⟩
  · intro e he
    obtain ⟨c, hc, hr⟩ := ht.read e he
    exact ⟨c, k1 c hc, hr⟩
  · intro c hc
    rcases o1 c hc with hc | ⟨p, hp, _, rfl⟩
    · rcases ht.only c hc with h | ⟨h1, h2⟩
      · exact .inl h
      · exact .inr ⟨h1, h2.mono (fun _ h => h) (by omega)⟩
    · rw [mem_boxCoords] at hp
      simp only [InBox] at hp
      refine .inr ⟨⟨rfl, rfl, rfl⟩, by simp only; omega, ?_, ?_⟩
      · simp only
        rw [show (p.y - 1).toNat = y by omega]
        exact hnat
      · rcases ht.wide with h | ⟨e, he, h⟩
        · exact .inl (by simp only; omega)
        · exact .inr ⟨e, he, by have := ht.early e he; simp only; omega, by simp only; omega⟩
  · intro ax
    have h1 := w1 ax
    have h2 := ht.lines .col
    cases ax <;> simp only [Goal.bound] at h1 h2 ⊢ <;> omega
  · intro i hi
    exact grows_look hg2 (ax := .col) (P := fun _ s => G.colOK i s) (ht.colLooks i hi)
  · intro i hi
    exact grows_look hg2 (ax := .row) (P := G.rowOK i) (ht.rowLooks i hi)
  · intro p h1 h2 h3 h4
    by_cases hy : p.y = ((y + 1 : Nat) : Int)
    · refine c1 p ?_
      rw [mem_boxCoords]
      have : p.x ≤ ((t.baseViews .col).length : Int) := by
        rcases h2 with (h2 | ⟨e, he, _, h2⟩) | h2
        · by_cases hk : G.known = 0
          · omega
          · obtain ⟨vs, v, e1, e2, _⟩ := ht.colLooks (G.known - 1) (by omega)
            have := (List.getElem?_eq_some_iff.mp e2).1
            have hb : t.baseViews .col = vs := base_of_some e1
            rw [hb]; omega
        · obtain ⟨c, hc, hr⟩ := ht.read e he
          have h5 := hd.enough c hc
          simp only [lastLine, Cell.max, (hR _ _ hr)] at h5
          exact Int.le_trans h2 h5
        · omega
      simp only [InBox]
      omega
    · obtain ⟨c, hc, hin⟩ := ht.filled p h1 h2 h3 (by omega)
      exact ⟨c, k1 c hc, hin⟩
  · have h1 := w1 .col
    simp only at h1
    rcases ht.wide with h2 | ⟨a, ha, h2⟩
    · exact .inl (by omega)
    · exact .inr ⟨a, ha, by omega⟩

/-- the table is as wide as it can be -/
theorem Rag.boundingWidth {G : Goal} {E : List ι} {y f : Nat} {t : Table Content} (hR : ∀ e c, R e c → c.box = bx e) (ht : Rag bx R G E y f t) (hE : E ≠ []) (hf : 1 ≤ f)
    (hw : (∃ e ∈ E, (bx e).max.x = G.w) ∨ G.known = G.w) : ∃ b, t.boundingBox = .ok (some b) ∧ b.width = G.w := by
  have hval := ht.inv.grid.valid
  have hcol : ∀ c ∈ t.grid.cells, c.box.max.x ≤ G.w ∧ c.box.max.y ≤ G.h := by
    intro c hc
    have h1 := (Table.base_describes ht.inv .col).enough c hc
    have h2 := (Table.base_describes ht.inv .row).enough c hc
    have := ht.lines .col
    have := ht.lines .row
    simp only [lastLine, Cell.max, Goal.bound] at *
    omega
  obtain ⟨e0, he0⟩ := List.exists_mem_of_ne_nil E hE
  obtain ⟨c0, hc0, _⟩ := ht.read e0 he0
  have hw1 : 1 ≤ G.w := by
    have h1 := hval c0 hc0
    have h2 := hcol c0 hc0
    unfold Box.Valid at h1; omega
  rcases boundingBox_inv t.grid ht.inv.grid with ⟨h1, _⟩ | ⟨b, _, h2, hbv, hall, hleast⟩
  · rw [h1] at hc0; cases hc0
  have hbmax := hleast ⟨⟨1, 1⟩, ⟨G.w, G.h⟩⟩ (by
    intro c hc
    rw [within_iff (hval c hc)]
    have h1 := hval c hc
    have h3 := hcol c hc
    unfold Box.Valid at h1
    simp only [InBox]; omega)
  rw [within_iff hbv] at hbmax
  have hmem : ∀ p, Covered t.grid.cells p → InBox p b := by
    rintro p ⟨c, hc, hp⟩
    exact hall c hc p hp
  have h11 := hmem _ (ht.filled ⟨1, 1⟩ (by simp) (.inr rfl) (by simp) (by simp only; omega))
  have hx : (G.w : Int) ≤ b.max.x := by
    rcases hw with ⟨e, he, hx⟩ | hk
    · obtain ⟨c, hc, hr⟩ := ht.read e he
      have h1 := hval c hc
      have := hmem c.box.max ⟨c, hc, by unfold Box.Valid at h1; simp only [InBox]; omega⟩
      rw [hR _ _ hr] at this
      simp only [InBox] at this; omega
    · have := hmem _ (ht.filled ⟨G.known, 1⟩ (by simp only; omega) (.inl (.inl (by simp))) (by simp) (by simp only; omega))
      simp only [InBox] at this; omega
  refine ⟨b, h2, ?_⟩
  simp only [InBox] at hbmax h11
  unfold Box.width
  omega

/-- a row which is full is finished -/
theorem Rag.rowDone {G : Goal} {E : List ι} {y : Nat} {t : Table Content} (hR : ∀ e c, R e c → c.box = bx e) (ht : Rag bx R G E (y + 1) y t) (hw : 1 ≤ G.w)
    (hcov : ∀ p : Coord, p.y = ((y + 1 : Nat) : Int) → 1 ≤ p.x → p.x ≤ G.w → Covered t.grid.cells p) : Rag bx R G E (y + 1) (y + 1) t := by
  refine ⟨ht.inv, ht.read, ?_, ht.same, ht.lines, ht.colLooks, ht.rowLooks, ?_, ht.early, ht.wide⟩
  · intro c hc
    rcases ht.only c hc with h | ⟨h1, h2⟩
    · exact .inl h
    · exact .inr ⟨h1, h2.mono (fun _ h => h) (by omega)⟩
  · intro p h1 h2 h3 h4
    by_cases hy : p.y = ((y + 1 : Nat) : Int)
    · refine hcov p hy h1 ?_
      have hl := ht.lines .col
      simp only [Goal.bound] at hl
      rcases h2 with (h2 | ⟨e, he, _, h2⟩) | h2
      · by_cases hk : G.known = 0
        · omega
        · obtain ⟨vs, v, e1, e2, _⟩ := ht.colLooks (G.known - 1) (by omega)
          have := (List.getElem?_eq_some_iff.mp e2).1
          have hb : t.baseViews .col = vs := base_of_some e1
          rw [hb] at hl; omega
      · obtain ⟨c, hc, hr⟩ := ht.read e he
        have h5 := (Table.base_describes ht.inv .col).enough c hc
        simp only [lastLine, Cell.max, hR _ _ hr] at h5
        omega
      · omega
    · exact ht.filled p h1 h2 h3 (by omega)

/-- state of the table when the holes are filled, after `y` rows -/
structure RagEnd (bx : ι → Box) (R : ι → Cell Content → Prop) (G : Goal) (E : List ι) (y : Nat) (t : Table Content) : Prop where
  inv : t.Inv
  read : ∀ e ∈ E, ∃ c ∈ t.grid.cells, R e c
  only : ∀ c ∈ t.grid.cells, (∃ e ∈ E, R e c) ∨
    (AddedCell c ∧ (AddedInRow bx G E y c ∨ c.nature = none ∧ ¬ (c.box.min.y ≤ y ∧ Reach bx G E c.box.min)))
  same : t.styles = G.styles ∧ t.nature = G.nature
  lines : ∀ ax, (t.baseViews ax).length ≤ G.bound ax
  colLooks : ∀ i, i < G.known → ∃ vs v, t.cols = some vs ∧ vs[i]? = some v ∧ G.colOK i v.styles
  rowLooks : ∀ i, i < y → ∃ vs v, t.rows = some vs ∧ vs[i]? = some v ∧ G.rowOK i v.nature v.styles

/-- the holes are filled -/
theorem Rag.fillHoles {G : Goal} {E : List ι} {y h : Nat} {t : Table Content} (hR : ∀ e c, R e c → c.box = bx e) (ht : Rag bx R G E y y t) (hE : E ≠ []) (hGh : G.h = h)
    (hw : (∃ e ∈ E, (bx e).max.x = G.w) ∨ G.known = G.w) (hh : (∃ e ∈ E, (bx e).max.y = h) ∨ y = h) (hy : 1 ≤ y ∧ y ≤ h)
    (hin : ∀ e ∈ E, (bx e).max.x ≤ G.w ∧ (bx e).max.y ≤ h) :
    ∃ t', CalsP.fillHoles t = (.ok (), t') ∧ RagEnd bx R G E y t' ∧
      ∀ p : Coord, Covered t'.grid.cells p ↔ 1 ≤ p.x ∧ p.x ≤ G.w ∧ 1 ≤ p.y ∧ p.y ≤ h := by
  have hd := Table.base_describes ht.inv .col
  have hval := ht.inv.grid.valid
  have hcol : ∀ c ∈ t.grid.cells, c.box.max.x ≤ G.w := by
    intro c hc
    have := hd.enough c hc
    have := ht.lines .col
    simp only [lastLine, Cell.max, Goal.bound] at *
    omega
  have hrow : ∀ c ∈ t.grid.cells, c.box.max.y ≤ h := by
    intro c hc
    rcases ht.only c hc with ⟨e, he, hr⟩ | ⟨⟨_, _, h3⟩, h4⟩
    · rw [(hR _ _ hr)]; exact (hin e he).2
    · have := h4.1
      rw [h3]; omega
  obtain ⟨e0, he0⟩ := List.exists_mem_of_ne_nil E hE
  obtain ⟨c0, hc0, _⟩ := ht.read e0 he0
  have hw1 : 1 ≤ G.w := by
    have h1 := hval c0 hc0
    have h2 := hcol c0 hc0
    unfold Box.Valid at h1; omega
  rcases boundingBox_inv t.grid ht.inv.grid with ⟨h1, _⟩ | ⟨b, _, h2, hbv, hall, hleast⟩
  · rw [h1] at hc0; cases hc0
  have hbmax := hleast ⟨⟨1, 1⟩, ⟨G.w, h⟩⟩ (by
    intro c hc
    rw [within_iff (hval c hc)]
    have h1 := hval c hc
    have h3 := hcol c hc
    have h4 := hrow c hc
    unfold Box.Valid at h1
    simp only [InBox]; omega)
  rw [within_iff hbv] at hbmax
  have hmem : ∀ p, Covered t.grid.cells p → InBox p b := by
    rintro p ⟨c, hc, hp⟩
    exact hall c hc p hp
  have hread : ∀ e ∈ E, InBox (bx e).max b := by
    intro e he
    obtain ⟨c, hc, hr⟩ := ht.read e he
    have h1 := hval c hc
    refine hmem _ ⟨c, hc, ?_⟩
    rw [show (bx e) = c.box from (hR _ _ hr).symm]
    unfold Box.Valid at h1
    simp only [InBox]; omega
  have h11 := hmem _ (ht.filled ⟨1, 1⟩ (by simp) (.inr rfl) (by simp) (by simp only; omega))
  have hx : (G.w : Int) ≤ b.max.x := by
    rcases hw with ⟨e, he, hx⟩ | hk
    · have := hread e he
      simp only [InBox] at this; omega
    · have := hmem _ (ht.filled ⟨G.known, 1⟩ (by simp only; omega) (.inl (.inl (by simp))) (by simp) (by simp only; omega))
      simp only [InBox] at this; omega
  have hyy : (h : Int) ≤ b.max.y := by
    rcases hh with ⟨e, he, hx⟩ | hk
    · have := hread e he
      simp only [InBox] at this; omega
    · have := hmem _ (ht.filled ⟨1, y⟩ (by simp) (.inr rfl) (by simp only; omega) (by simp))
      simp only [InBox] at this; omega
  unfold Box.Valid at hbv
  simp only [InBox] at hbmax h11
  have hb : b = ⟨⟨1, 1⟩, ⟨G.w, h⟩⟩ := by apply box_ext <;> simp only <;> omega
  subst hb
  obtain ⟨t', r1, i1, k1, o1, c1, g1, w1, s1, n1⟩ := fill_ok (none : Option Content) none (B := G.bound)
    (Table.boxCoords ⟨⟨1, 1⟩, ⟨G.w, h⟩⟩) t ht.inv (by
      intro p hp
      rw [mem_boxCoords] at hp
      simp only [InBox, Goal.bound] at hp ⊢
      omega) ht.lines
  refine ⟨t', ?_, ⟨i1, ?_, ?_, ⟨s1.trans ht.same.1, n1.trans ht.same.2⟩, w1, ?_, ?_⟩, ?_⟩
  · unfold CalsP.fillHoles Table.boundingBox
    simp only [bind_run, get_run, lift_run, h2]
    exact r1
  · intro e he
    obtain ⟨c, hc, hr⟩ := ht.read e he
    exact ⟨c, k1 c hc, hr⟩
  · intro c hc
    rcases o1 c hc with hc | ⟨p, hp, hfree, rfl⟩
    · rcases ht.only c hc with h | ⟨h1, h2⟩
      · exact .inl h
      · exact .inr ⟨h1, .inl h2⟩
    · rw [mem_boxCoords] at hp
      simp only [InBox] at hp
      refine .inr ⟨⟨rfl, rfl, rfl⟩, .inr ⟨rfl, ?_⟩⟩
      rintro ⟨h5, h6⟩
      exact hfree (ht.filled p (by omega) (.inl h6) (by omega) h5)
  · intro i hi
    exact grows_look g1 (ax := .col) (P := fun _ s => G.colOK i s) (ht.colLooks i hi)
  · intro i hi
    exact grows_look g1 (ax := .row) (P := G.rowOK i) (ht.rowLooks i hi)
  · intro p
    constructor
    · rintro ⟨c, hc, hp⟩
      rcases o1 c hc with hc | ⟨q, hq, _, rfl⟩
      · have h1 := hval c hc
        have h3 := hcol c hc
        have h4 := hrow c hc
        unfold Box.Valid at h1
        simp only [InBox] at hp; omega
      · rw [mem_boxCoords] at hq
        simp only [InBox] at hp hq; omega
    · intro hp
      refine c1 p ?_
      rw [mem_boxCoords]
      simp only [InBox]; omega

/-- when the columns are known, the rows can be read -/
theorem docCols_rag {pc : CalsP.Config} {w W h : Nat} (hW : w ≤ W) {styles : Styles} {nature : Option String} {cols : List DocCol} (hmax : w = 0 ∨ ∃ c ∈ cols, c.num = w)
    (rowOK : Nat → Option String → Styles → Prop) {s : PState} (hs : AtDocCols pc w styles nature cols s) :
    ∃ t, s.table = some t ∧ s.rowPos = (0 : Nat) ∧ Rag bx R ⟨W, h, w, rowOK, DocColRead pc cols, styles, nature⟩ [] 0 0 t := by
  obtain ⟨t, h1, h2, h3, h4, h5, h6, h7, h8, h9, h10, h11⟩ := hs
  refine ⟨t, h1, h2, h4, by simp, by rw [h5]; simp, h9, ?_, ?_, by omega, ?_, by simp, .inl h7⟩
  · intro ax
    cases ax with
    | row =>
      have hl := (lastLineOf_spec .row t.grid h4.grid).2.2.2 h5
      have hb : t.baseViews .row = [] := by
        show (t.rows).getD _ = _
        rw [h6, hl]; rfl
      rw [hb]; exact Nat.zero_le _
    | col => exact Nat.le_trans h7 hW
  · intro i hi
    simp only at hi
    rcases hmax with rfl | ⟨c, hc, rfl⟩
    · omega
    · have := h10 c hc
      exact ⟨_, _, h8 (List.ne_nil_of_mem hc), List.getElem?_eq_getElem (by omega), h11 i _ (List.getElem?_eq_getElem (by omega))⟩
  · intro p _ _ h3 h4
    omega

end Benker
