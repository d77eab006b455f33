import Verif.Lemmas.Except
import Verif.Props.Table

/-! Filling a table row by row with `insert_cell` rebuilds a layout without holes. -/

namespace Benker
open PyM Table
variable {γ δ : Type}

/-- the cells, listed in reading order, tile the rectangle of `w` columns and `h` rows -/
structure Tiles (w h : Nat) (cells : List (Cell γ)) : Prop where
  valid : ∀ c ∈ cells, c.box.Valid
  sorted : cells.Pairwise (fun a b => CornerBefore a.box.min b.box.min)
  disjoint : DisjointCells cells
  inside : ∀ c ∈ cells, c.max.x ≤ w ∧ c.max.y ≤ h
  full : ∀ p : Coord, 1 ≤ p.x → p.x ≤ w → 1 ≤ p.y → p.y ≤ h → Covered cells p

theorem All₂.append {α β : Type} {R : α → β → Prop} {l l' : List α} {m m' : List β} (h : All₂ R l m) (h' : All₂ R l' m') :
    All₂ R (l ++ l') (m ++ m') := by
  induction h with
  | nil => exact h'
  | cons h1 _ ih => exact .cons h1 ih

/-- a cell which starts before another one comes before it -/
theorem Tiles.before {w h : Nat} {done rest : List (Cell γ)} {c d : Cell γ} (hT : Tiles w h (done ++ c :: rest))
    (hd : d ∈ done ++ c :: rest) (hb : CornerBefore d.box.min c.box.min) : d ∈ done := by
  have hs := hT.sorted
  rw [List.pairwise_append] at hs
  obtain ⟨_, h2, _⟩ := hs
  rw [List.pairwise_cons] at h2
  rcases List.mem_append.mp hd with hd | hd
  · exact hd
  · exfalso
    rcases List.mem_cons.mp hd with rfl | hd
    · unfold CornerBefore at hb; omega
    · have := h2.1 d hd
      unfold CornerBefore at hb this; omega

theorem Tiles.free {w h : Nat} {done rest : List (Cell γ)} {c : Cell γ} (hT : Tiles w h (done ++ c :: rest)) :
    FirstFree .row c.min.y done c.min.x := by
  have hv := hT.valid c (by simp)
  have hin := hT.inside c (by simp)
  unfold Box.Valid at hv
  simp only [Cell.max] at hin
  refine ⟨by simp only [Cell.min]; omega, ?_, ?_⟩
  · rintro ⟨d, hd, hp⟩
    have hdis := hT.disjoint
    unfold DisjointCells at hdis
    rw [List.pairwise_append] at hdis
    refine hdis.2.2 d hd c (by simp) ⟨_, hp, ?_⟩
    simp only [InBox, Axis.coord, Cell.min]; omega
  · intro j h1 h2
    simp only [Cell.min] at h2
    obtain ⟨d, hd, hp⟩ := hT.full (Axis.coord .row c.min.y j) (by simp only [Axis.coord]; omega)
      (by simp only [Axis.coord]; omega) (by simp only [Axis.coord, Cell.min]; omega) (by simp only [Axis.coord, Cell.min]; omega)
    refine ⟨d, hT.before hd ?_, hp⟩
    simp only [InBox, Axis.coord, Cell.min] at hp
    unfold CornerBefore; omega

theorem covered_all₂ {R : Cell γ → Cell δ → Prop} (hR : ∀ c d, R c d → d.box = c.box) {l : List (Cell γ)} {m : List (Cell δ)} (h : All₂ R l m) (p : Coord) :
    Covered m p ↔ Covered l p := by
  constructor
  · rintro ⟨d, hd, hp⟩
    obtain ⟨c, hc, hr⟩ := h.mem_right hd
    exact ⟨c, hc, by rw [← hR _ _ hr]; exact hp⟩
  · rintro ⟨c, hc, hp⟩
    obtain ⟨d, hd, hr⟩ := h.mem_left hc
    exact ⟨d, hd, by rw [hR _ _ hr]; exact hp⟩

theorem firstFree_congr {ax : Axis} {pos : Int} {l : List (Cell γ)} {m : List (Cell δ)} (h : ∀ p, Covered m p ↔ Covered l p) {k : Int}
    (hf : FirstFree ax pos l k) : FirstFree ax pos m k :=
  ⟨hf.1, fun hc => hf.2.1 ((h _).mp hc), fun j h1 h2 => (h _).mpr (hf.2.2 j h1 h2)⟩

/-- nothing is added to a box which is already covered -/
theorem fillMissing_noop (b : Box) (content : Option γ) (st : Option Styles) (n : Option String) (t : Table γ)
    (h : ∀ p, InBox p b → Covered t.grid.cells p) : fillMissing b content st n t = (.ok (), t) := by
  have key : ∀ L : List Coord, (∀ p ∈ L, Covered t.grid.cells p) → forEach (fillOne content st n) L t = (.ok (), t) := by
    intro L
    induction L with
    | nil => intro _; rfl
    | cons p L ih =>
      intro hL
      have hp : t.grid.hasCoord p = true := (hasCoord_grid _ _).mpr (hL p (by simp))
      have e : forEach (fillOne content st n) (p :: L) t = ((fillOne content st n p >>= fun _ => forEach (fillOne content st n) L) t) := rfl
      rw [e, bind_run, Table.fillOne_run, if_pos hp]
      exact ih (fun q hq => hL q (by simp [hq]))
  exact key _ (fun p hp => h p ((mem_boxCoords b p).mp hp))

theorem corner_last {l : List (Cell γ)} {c : Cell γ} {m : List (Cell γ)} (hp : m.Perm (c :: l)) (hm : m.Pairwise (fun a b => CornerBefore a.box.min b.box.min))
    (hl : l.Pairwise (fun a b => CornerBefore a.box.min b.box.min)) (hc : ∀ d ∈ l, CornerBefore d.box.min c.box.min) : m = l ++ [c] := by
  have hp' : m.Perm (l ++ [c]) := hp.trans (List.perm_append_singleton c l).symm
  refine hp'.eq_of_pairwise ?_ hm ?_
  · intro a b _ _ h1 h2
    unfold CornerBefore at h1 h2; omega
  · rw [List.pairwise_append]
    refine ⟨hl, by simp, ?_⟩
    intro a ha b hb
    rw [List.mem_singleton] at hb; subst hb
    exact hc a ha

/-- what a table must look like after the filling: its size, the looks of its rows and of the columns known before the first row, its styles
and its nature -/
structure Goal where
  w : Nat
  h : Nat
  known : Nat
  rowOK : Nat → Option String → Styles → Prop
  colOK : Nat → Styles → Prop
  styles : Styles
  nature : Option String

/-- state of a table during the filling: `done` cells are copied, `y` rows are started -/
structure Refill (G : Goal) (R : Cell γ → Cell δ → Prop) (done : List (Cell γ)) (y : Nat) (t : Table δ) : Prop where
  inv : t.Inv
  cells : All₂ R done t.grid.cells
  same : t.styles = G.styles ∧ t.nature = G.nature
  cols : (t.baseViews .col).length ≤ G.w
  colLooks : ∀ i, i < G.known → ∃ vs v, t.cols = some vs ∧ vs[i]? = some v ∧ G.colOK i v.styles
  started : 1 ≤ y → t.rows = some (t.baseViews .row)
  enough : y ≤ (t.baseViews .row).length
  notMore : (t.baseViews .row).length ≤ G.h
  rowLooks : ∀ i, i < y → ∃ v, (t.baseViews .row)[i]? = some v ∧ G.rowOK i v.nature v.styles

theorem adopted_length (ax : Axis) (c : Cell γ) (vs : List (View γ)) :
    ((adoptedViews ax c vs).length : Int) = max (vs.length : Int) (lastLine ax c) := by
  unfold adoptedViews
  rw [List.length_map, grow_length, last_eq]

theorem adopted_looks (ax : Axis) (c : Cell γ) (vs : List (View γ)) (i : Nat) (v : View γ) (h : vs[i]? = some v) :
    ∃ v', (adoptedViews ax c vs)[i]? = some v' ∧ v'.nature = v.nature ∧ v'.styles = v.styles := by
  obtain ⟨hlt, rfl⟩ := List.getElem?_eq_some_iff.mp h
  unfold adoptedViews
  have h' : i < (Views.grow (ax.last c.box) vs).length := by have := grow_length (ax.last c.box) vs; omega
  rw [List.getElem?_map, List.getElem?_eq_getElem h', grow_getElem, dif_pos hlt]
  exact ⟨_, rfl, rfl, rfl⟩

theorem adopted_nature (ax : Axis) (c : Cell γ) (vs : List (View γ)) (i : Nat) (h : i < vs.length) :
    (adoptedViews ax c vs)[i]?.map (·.nature) = vs[i]?.map (·.nature) := by
  obtain ⟨v', h1, h2, _⟩ := adopted_looks ax c vs i _ (List.getElem?_eq_getElem h)
  rw [h1, List.getElem?_eq_getElem h, Option.map_some, Option.map_some, h2]

/-- one more cell is put at its place -/
theorem Refill.put {R : Cell γ → Cell δ → Prop} (hR : ∀ c d, R c d → d.box = c.box) {G : Goal} {y : Nat}
    {done rest : List (Cell γ)} {c : Cell γ} {t : Table δ} (hT : Tiles G.w G.h (done ++ c :: rest)) (ht : Refill G R done y t)
    (hy : c.min.y = y) (key : PyVal) (hkey : Coord.fromValue key = .ok c.box.min) (new : Cell δ) (hRnew : R c new) :
    ∃ t', setItem key new t = (.ok (), t') ∧ Refill G R (done ++ [c]) y t' := by
  have hv := hT.valid c (by simp)
  have hin := hT.inside c (by simp)
  have hv' := hv
  unfold Box.Valid at hv'
  have hpos : 1 ≤ (y : Int) := by simp only [Cell.min] at hy; omega
  have hbase := ht.started (by omega)
  have hnb : new.box = c.box := hR _ _ hRnew
  have hself : movedTo new c.box.min = new := by
    cases new with
    | mk a b d e =>
      simp only at hnb; subst hnb
      simp only [movedTo, Cell.mk.injEq, true_and]
      apply box_ext <;> simp only <;> omega
  have hnv : new.box.Valid := by rw [hnb]; exact hv
  have hno : ∀ d ∈ t.grid.cells, d.box.intersect new.box = false := by
    intro d hd
    rw [Bool.eq_false_iff]
    intro hx
    obtain ⟨c', hc', hr⟩ := ht.cells.mem_right hd
    have ho := intersect_overlap hx (ht.inv.grid.valid d hd) hnv
    rw [hR _ _ hr, hnb] at ho
    have hdis := hT.disjoint
    unfold DisjointCells at hdis
    rw [List.pairwise_append] at hdis
    exact hdis.2.2 c' hc' c (by simp) ho
  rcases setItem_run ht.inv key new hnv with ⟨e, h1, h2⟩ | ⟨p, g', hp, hs, hr⟩
  · exfalso
    rcases setItem_cases key new hnv t.grid with ⟨_, h3⟩ | ⟨p, h3, ⟨hneg, _⟩ | ⟨_, ⟨⟨d, hd, hx⟩, _⟩ | ⟨_, h4⟩⟩⟩
    · rw [hkey] at h3; cases h3
    · rw [hkey] at h3; cases h3; exact hneg (by omega)
    · rw [hkey] at h3; cases h3; rw [hself] at hx; rw [hno d hd] at hx; cases hx
    · rw [h4] at h1; cases h1
  · rw [hkey] at hp; cases hp
    rw [hself] at hr
    refine ⟨_, hr, ?_⟩
    have hinv' : (exec (setItem key new) t).Inv := setItem_tinv ht.inv _ new hnv
    unfold exec at hinv'
    rw [hr] at hinv'
    obtain ⟨_, new', e1, e2, _, _, _, _, _, e8, -⟩ := set_get_inv _ ht.inv.grid _ new hnv g' hs
    obtain ⟨_, new'', e1', hn'', e2', -⟩ := setItem_ok_facts ht.inv.grid hnv hs
    rw [e2] at e2'
    cases e2'
    rw [hkey] at e1'; cases e1'
    rw [hself] at hn''
    subst hn''
    have hg' : g'.Inv := hinv'.grid
    have hcells : g'.cells = t.grid.cells ++ [new'] := by
      refine corner_last e8 hg'.sorted ht.inv.grid.sorted ?_
      intro d hd
      obtain ⟨c', hc', hr'⟩ := ht.cells.mem_right hd
      rw [hR _ _ hr', hnb]
      have hs' := hT.sorted
      rw [List.pairwise_append] at hs'
      exact hs'.2.2 c' hc' c (by simp)
    have hbr : ({ t with grid := g' } : Table δ).baseViews .row = t.baseViews .row := by
      show (t.rows).getD _ = _
      rw [hbase]; rfl
    have hbc : (({ t with grid := g' } : Table δ).baseViews .col).length ≤ G.w := by
      rcases Option.eq_none_or_eq_some t.cols with hcv | ⟨cvs, hcv⟩
      case inr =>
        have e1 : ({ t with grid := g' } : Table δ).baseViews .col = t.baseViews .col := by
          show (t.cols).getD _ = (t.cols).getD _
          rw [hcv]; rfl
        rw [e1]; exact ht.cols
      case inl =>
        have e1 : ({ t with grid := g' } : Table δ).baseViews .col = (Views.fit (lastLineOf .col g') true []).map (refreshed .col g'.cells) := by
          show (t.cols).getD _ = _
          rw [hcv]; rfl
        rw [e1, List.length_map]
        obtain ⟨_, h0, h1, _⟩ := lastLineOf_spec .col g' hg'
        have e2 : ((Views.fit (lastLineOf .col g') true ([] : List (View δ))).length : Int) = lastLineOf .col g' := fit_true_length _ h0 _
        obtain ⟨d, hd, he⟩ := h1 (by rw [hcells]; simp)
        have : lastLine .col d ≤ G.w := by
          rw [hcells] at hd
          rcases List.mem_append.mp hd with hd | hd
          · obtain ⟨c', hc', hr'⟩ := ht.cells.mem_right hd
            have := (hT.inside c' (by simp [hc'])).1
            simp only [lastLine, Cell.max, hR _ _ hr'] at this ⊢; exact this
          · rw [List.mem_singleton] at hd; subst hd
            simp only [lastLine, Cell.max, hnb]; exact hin.1
        omega
    have hlr := adopted_length .row new' (t.baseViews .row)
    have hlc := adopted_length .col new' (({ t with grid := g' } : Table δ).baseViews .col)
    have l1 : lastLine .row new' = c.max.y := by unfold lastLine; simp only [Cell.max, hnb]
    have l2 : lastLine .col new' = c.max.x := by unfold lastLine; simp only [Cell.max, hnb]
    have n1 := ht.enough
    have n2 := ht.notMore
    refine ⟨hinv', ?_, ht.same, ?_, ?_, fun _ => rfl, ?_, ?_, ?_⟩
    · show All₂ R (done ++ [c]) g'.cells
      rw [hcells]
      exact ht.cells.append (.cons hRnew .nil)
    · show (adoptedViews .col new' _).length ≤ G.w
      omega
    · intro i hi
      obtain ⟨vs, v, hvs, hv, hok⟩ := ht.colLooks i hi
      have e1 : ({ t with grid := g' } : Table δ).baseViews .col = vs := by
        show (t.cols).getD _ = _
        rw [hvs]; rfl
      obtain ⟨v', h1, _, h3⟩ := adopted_looks .col new' vs i v hv
      refine ⟨adoptedViews .col new' (({ t with grid := g' } : Table δ).baseViews .col), v', rfl, by rw [e1]; exact h1, by rw [h3]; exact hok⟩
    · show y ≤ (adoptedViews .row new' _).length
      rw [hbr]; omega
    · show (adoptedViews .row new' _).length ≤ G.h
      rw [hbr]; omega
    · intro i hi
      obtain ⟨v, hv, hok⟩ := ht.rowLooks i hi
      obtain ⟨v', h1, h2, h3⟩ := adopted_looks .row new' (t.baseViews .row) i v hv
      refine ⟨v', ?_, by rw [h2, h3]; exact hok⟩
      show (adoptedViews .row new' _)[i]? = _
      rw [hbr]; exact h1

/-- one more cell -/
theorem Refill.insert {R : Cell γ → Cell δ → Prop} (hR : ∀ c d, R c d → d.box = c.box) {G : Goal} {y : Nat}
    {done rest : List (Cell γ)} {c : Cell γ} {t : Table δ} (hT : Tiles G.w G.h (done ++ c :: rest)) (ht : Refill G R done y t)
    (hy : c.min.y = y) (content : Option δ) (st : Option Styles) (nature : Option String)
    (hc : ∀ m, R c ⟨content, st.getD [], nature.or m, c.box⟩) :
    ∃ t', insertCell .row y content st nature c.width c.height t = (.ok (), t') ∧ Refill G R (done ++ [c]) y t' := by
  have hv := hT.valid c (by simp)
  have hv' := hv
  unfold Box.Valid at hv'
  have hpos : 1 ≤ (y : Int) := by simp only [Cell.min] at hy; omega
  obtain ⟨k, hff, he⟩ := insertCell_eq ht.inv .row y hpos content st nature c.width c.height
  have hff' := firstFree_congr (covered_all₂ hR ht.cells) hT.free
  rw [hy] at hff'
  have hk := firstFree_unique hff hff'
  subst hk
  have hbase := ht.started (by omega)
  have hvt : exec (viewAt .row (y : Int)) t = t := by
    have := ht.enough
    unfold exec; rw [viewAt_run ht.inv, grow_noop _ _ (by omega)]
    exact setViews_self .row _ t hbase
  rw [hvt, cell_new_ok _ _ _ (by
    simp only [Axis.coord, Cell.min, Cell.width, Box.width, Cell.height, Box.height] at *; omega)] at he
  simp only at he
  have hbox : (⟨⟨(Axis.row.coord y c.min.x).x, (Axis.row.coord y c.min.x).y⟩,
      ⟨(Axis.row.coord y c.min.x).x + c.width - 1, (Axis.row.coord y c.min.x).y + c.height - 1⟩⟩ : Box) = c.box := by
    rw [← hy]
    apply box_ext <;> simp only [Axis.coord, Cell.min, Cell.width, Box.width, Cell.height, Box.height] <;> omega
  rw [hbox] at he
  generalize hnew : (⟨content, st.getD [], nature.or (viewNature t .row y), c.box⟩ : Cell δ) = new at he
  have hcoord : Axis.row.coord y c.min.x = c.box.min := by
    rw [← hy]; rfl
  rw [hcoord] at he
  have hRnew : R c new := by rw [← hnew]; exact hc _
  obtain ⟨t', h1, h2⟩ := ht.put hR hT hy (.coord c.box.min) rfl new hRnew
  exact ⟨t', he.trans h1, h2⟩

/-- the start of a row -/
theorem Refill.startRow {R : Cell γ → Cell δ → Prop} {G : Goal} {y : Nat} {done : List (Cell γ)} {t : Table δ}
    (ht : Refill G R done y t) (hy : y + 1 ≤ G.h) (f : View δ → View δ) (hf : LooksOnly f) (hn : ∀ v, G.rowOK y (f v).nature (f v).styles) :
    ∃ t', editView .row ((y : Int) + 1) f t = (.ok (), t') ∧ Refill G R done (y + 1) t' := by
  have n1 := ht.enough
  have n2 := ht.notMore
  have hl := grow_length ((y : Int) + 1) (t.baseViews .row)
  have hup := updateAt_pos y f (Views.grow ((y : Int) + 1) (t.baseViews .row)) (by omega)
  have e : ((y : Int) + 1 - 1) = (y : Int) := by omega
  have hr := Table.editView_run ht.inv .row ((y : Int) + 1) f
  rw [e, hup] at hr
  simp only at hr
  refine ⟨_, hr, ?_⟩
  have hinv' := editView_tinv ht.inv .row ((y : Int) + 1) f hf
  unfold exec at hinv'
  rw [hr] at hinv'
  refine ⟨hinv', by rw [grid_setViews]; exact ht.cells, ht.same, by rw [baseViews_setViews_ne (by decide)]; exact ht.cols, ht.colLooks,
    fun _ => by rw [baseViews_setViews]; rfl, ?_, ?_, ?_⟩
  · rw [baseViews_setViews, List.length_modify]; omega
  · rw [baseViews_setViews, List.length_modify]; omega
  · intro i hi
    rw [baseViews_setViews, List.getElem?_modify]
    by_cases hiy : y = i
    · subst hiy
      rw [List.getElem?_eq_getElem (by omega)]
      exact ⟨_, by simp; rfl, hn _⟩
    · obtain ⟨v, hv, hok⟩ := ht.rowLooks i (by omega)
      obtain ⟨hlt, rfl⟩ := List.getElem?_eq_some_iff.mp hv
      refine ⟨_, ?_, hok⟩
      rw [List.getElem?_eq_getElem (by omega), grow_getElem, dif_pos (by omega)]
      simp [hiy]

/-- reading the columns changes nothing -/
theorem Refill.readCols {R : Cell γ → Cell δ → Prop} {G : Goal} {y : Nat} {done : List (Cell γ)} {t : Table δ} (ht : Refill G R done y t) :
    Refill G R done y (t.setViews .col (t.baseViews .col)) := by
  have e : (t.setViews .col (t.baseViews .col)).baseViews .row = t.baseViews .row := baseViews_setViews_ne (by decide) _ _
  refine ⟨inv_setViews ht.inv .col _ (base_describes ht.inv .col), by rw [grid_setViews]; exact ht.cells, ht.same,
    by rw [baseViews_setViews]; exact ht.cols, ?_, ?_, by rw [e]; exact ht.enough, by rw [e]; exact ht.notMore, by rw [e]; exact ht.rowLooks⟩
  · intro i hi
    obtain ⟨vs, v, hvs, hv, hok⟩ := ht.colLooks i hi
    refine ⟨_, v, rfl, ?_, hok⟩
    have : t.baseViews .col = vs := by
      show (t.cols).getD _ = _
      rw [hvs]; rfl
    rw [this]; exact hv
  · intro h
    rw [e]; exact ht.started h

/-- a row whose cells are all there has no hole -/
theorem Refill.endRow {R : Cell γ → Cell δ → Prop} (hR : ∀ c d, R c d → d.box = c.box) {G : Goal} {y : Nat}
    {done rest : List (Cell γ)} {t : Table δ} (hT : Tiles G.w G.h (done ++ rest)) (ht : Refill G R done y t) (hy : y ≤ G.h)
    (hrest : ∀ c ∈ rest, (y : Int) < c.min.y) (p : Coord) (hp : 1 ≤ p.x ∧ p.x ≤ G.w ∧ 1 ≤ p.y ∧ p.y ≤ y) : Covered t.grid.cells p := by
  rw [covered_all₂ hR ht.cells]
  obtain ⟨c, hc, hin⟩ := hT.full p hp.1 hp.2.1 hp.2.2.1 (by omega)
  rcases List.mem_append.mp hc with hc | hc
  · exact ⟨c, hc, hin⟩
  · have := hrest c hc
    simp only [InBox, Cell.min] at hin this
    omega

/-- there is at least one column at the end of the first row -/
theorem Refill.someCol {R : Cell γ → Cell δ → Prop} {G : Goal} {y : Nat} {done : List (Cell γ)} {t : Table δ} (ht : Refill G R done y t)
    {p : Coord} (hp : Covered t.grid.cells p) : 1 ≤ (t.baseViews .col).length := by
  obtain ⟨d, hd, _⟩ := hp
  have e1 := (base_describes ht.inv .col).enough d hd
  have e2 := lines_valid .col d (ht.inv.grid.valid d hd)
  omega

end Benker
