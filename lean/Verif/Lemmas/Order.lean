import Verif.Lemmas.CalsParser
import Verif.Lemmas.RowFill

/-! Tables whose rows list their cells from left to right: the operations used by the parsers keep this. -/

namespace Benker
variable {γ : Type}
open PyM

/-- the row views exist and list their cells from left to right; there is no hole at the left of the start of a cell -/
structure Tidy (t : Table γ) : Prop where
  inv : t.Inv
  rows : ∃ vs, t.rows = some vs ∧ ∀ v ∈ vs, v.owned.Pairwise (fun a b => a.min.x < b.min.x)
  left : ∀ c ∈ t.grid.cells, ∀ x, 1 ≤ x → x < c.min.x → Covered t.grid.cells ⟨x, c.min.y⟩

/-- a table which nothing has touched -/
structure Fresh (t : Table γ) : Prop where
  inv : t.Inv
  empty : t.grid.cells = []
  rows : t.rows = none

theorem adopt_owned (c : Cell γ) (v : View γ) (h : v.owned.Pairwise (fun a b => a.min.x < b.min.x))
    (hl : StartsIn .row v.pos c → ∀ d ∈ v.owned, d.min.x < c.min.x) :
    (View.adopt .row c v).owned.Pairwise (fun a b => a.min.x < b.min.x) := by
  unfold View.adopt
  by_cases hc : v.canOwn .row c = true
  · simp only [hc, if_true]
    rw [List.pairwise_append]
    refine ⟨h, List.pairwise_singleton _ _, ?_⟩
    intro a ha b hb
    rw [List.mem_singleton] at hb; subst hb
    exact hl ((canOwn_iff .row v b).mp hc) a ha
  · simp only [hc]; exact h

theorem grow_mem {n : Int} {vs : List (View γ)} {v : View γ} (h : v ∈ Views.grow n vs) : v ∈ vs ∨ v.owned = [] := by
  obtain ⟨i, hi, rfl⟩ := List.getElem_of_mem h
  rw [grow_getElem]
  split
  · exact .inl (List.getElem_mem _)
  · exact .inr rfl

/-- a cell put on a free place, everything on its left being covered -/
theorem Tidy.put {t t' : Table γ} (ht : Tidy t) {key : PyVal} {cell : Cell γ} (hc : cell.box.Valid) {p : Coord}
    (hkey : Coord.fromValue key = .ok p) (hfree : ¬ Covered t.grid.cells p)
    (hleft : ∀ x, 1 ≤ x → x < p.x → Covered t.grid.cells ⟨x, p.y⟩)
    (h : Table.setItem key cell t = (.ok (), t')) : Tidy t' ∧ Covered t'.grid.cells p ∧ ∀ q, Covered t.grid.cells q → Covered t'.grid.cells q := by
  have hinv' := Table.setItem_tinv ht.inv key cell hc
  unfold exec at hinv'
  rw [h] at hinv'
  rcases Table.setItem_run ht.inv key cell hc with ⟨e, _, h2⟩ | ⟨p', g', hp, hs, hr⟩
  · rw [h2] at h; cases h
  rw [hkey] at hp; cases hp
  obtain ⟨_, new, h1, hnew, _, h3, _, h5, h6⟩ := setItem_ok_facts ht.inv.grid hc hs
  rw [hkey] at h1; cases h1
  rw [hr] at h
  cases h
  have hmin : new.box.min = p := by rw [hnew]; rfl
  rw [← hnew] at hinv' ⊢
  obtain ⟨vs, hvs, hord⟩ := ht.rows
  have hd := ht.inv.views .row vs hvs
  have hmono : ∀ q, Covered t.grid.cells q → Covered g'.cells q := by
    rintro q ⟨d, hd, hin⟩; exact ⟨d, (h5 d).mpr (.inr hd), hin⟩
  have hstart : Covered g'.cells p := by
    refine ⟨new, (h5 new).mpr (.inl rfl), ?_⟩
    unfold Box.Valid at h3
    rw [← hmin]; simp only [InBox]; omega
  refine ⟨⟨hinv', ?_, ?_⟩, hstart, hmono⟩
  · refine ⟨_, rfl, ?_⟩
    intro v hv
    have hb : ({ t with grid := g' } : Table γ).baseViews .row = vs := by
      show (t.rows).getD _ = _
      rw [hvs]; rfl
    rw [hb] at hv
    obtain ⟨w, hw, rfl⟩ := List.mem_map.mp hv
    rcases grow_mem hw with hw | hw
    · refine adopt_owned _ _ (hord w hw) ?_
      intro hst d hdm
      obtain ⟨hdc, hds⟩ := (hd.owned w hw d).mp hdm
      simp only [StartsIn, firstLine] at hst hds
      have hvd := ht.inv.grid.valid d hdc
      have hcov : Covered t.grid.cells d.box.min := ⟨d, hdc, by unfold Box.Valid at hvd; simp only [InBox]; omega⟩
      simp only [Cell.min] at hst hds ⊢
      rw [hmin] at hst ⊢
      rcases Int.lt_trichotomy d.box.min.x p.x with hlt | he | hgt
      · exact hlt
      · exact absurd (show d.box.min = p by
          have : d.box.min.y = p.y := by omega
          cases hm : d.box.min; cases p; simp_all) (fun e => hfree (e ▸ hcov))
      · exfalso
        apply hfree
        have : Covered t.grid.cells ⟨p.x, d.min.y⟩ := ht.left d hdc p.x (by
          unfold Box.Valid at h3; rw [hmin] at h3; omega) hgt
        have e : (⟨p.x, d.min.y⟩ : Coord) = p := by
          cases p; simp only [Cell.min, Coord.mk.injEq, true_and]; simp only at hst; omega
        rwa [e] at this
    · refine adopt_owned _ _ (by rw [hw]; exact .nil) ?_
      intro _ d hdm; rw [hw] at hdm; cases hdm
  · intro c hcm x hx1 hx2
    rcases (h5 c).mp hcm with rfl | hcm
    · simp only [Cell.min] at hx2 ⊢
      rw [hmin] at hx2 ⊢
      exact hmono _ (hleft x hx1 hx2)
    · exact hmono _ (ht.left c hcm x hx1 hx2)

theorem Tidy.setRows {t : Table γ} (ht : Tidy t) {vs : List (View γ)} (hd : Describes .row t.grid.cells vs)
    (ho : ∀ v ∈ vs, v.owned.Pairwise (fun a b => a.min.x < b.min.x)) : Tidy (t.setViews .row vs) :=
  ⟨Table.inv_setViews ht.inv .row vs hd, ⟨vs, rfl, ho⟩, ht.left⟩

theorem Tidy.setCols {t : Table γ} (ht : Tidy t) {vs : List (View γ)} (hd : Describes .col t.grid.cells vs) : Tidy (t.setViews .col vs) :=
  ⟨Table.inv_setViews ht.inv .col vs hd, ht.rows, ht.left⟩

theorem Tidy.base {t : Table γ} (ht : Tidy t) : ∀ v ∈ t.baseViews .row, v.owned.Pairwise (fun a b => a.min.x < b.min.x) := by
  obtain ⟨vs, hvs, ho⟩ := ht.rows
  have : t.baseViews .row = vs := by show (t.rows).getD _ = _; rw [hvs]; rfl
  rw [this]; exact ho

theorem grow_ordered {n : Int} {vs : List (View γ)} (h : ∀ v ∈ vs, v.owned.Pairwise (fun a b => a.min.x < b.min.x)) :
    ∀ v ∈ Views.grow n vs, v.owned.Pairwise (fun a b => a.min.x < b.min.x) := by
  intro v hv
  rcases grow_mem hv with hv | hv
  · exact h v hv
  · rw [hv]; exact .nil

theorem Tidy.viewAt {t : Table γ} (ht : Tidy t) (pos : Int) : Tidy (exec (Table.viewAt .row pos) t) := by
  unfold exec
  rw [Table.viewAt_run ht.inv]
  exact ht.setRows (grow_describes ht.inv.grid.valid (Table.base_describes ht.inv .row) pos) (grow_ordered ht.base)

theorem Tidy.views {t : Table γ} (ht : Tidy t) : Tidy (exec (Table.views .col) t) := by
  unfold exec
  rw [Table.views_run .col t ht.inv.grid]
  exact ht.setCols (Table.base_describes ht.inv .col)

theorem updated_mem {i : Int} {f : View γ → View γ} {vs : List (View γ)} {v : View γ} (hf : Table.LooksOnly f)
    (h : v ∈ (Views.updateAt i f vs).2) : ∃ w ∈ vs, v.owned = w.owned := by
  rcases Table.updateAt_state i f vs with e | ⟨j, _, e⟩
  · rw [e] at h; exact ⟨v, h, rfl⟩
  · rw [e] at h
    obtain ⟨k, hk, rfl⟩ := List.getElem_of_mem h
    rw [List.getElem_modify]
    rw [List.length_modify] at hk
    split
    · exact ⟨vs[k], List.getElem_mem _, (hf _).2.1⟩
    · exact ⟨vs[k], List.getElem_mem _, rfl⟩

theorem updated_describes {ax : Axis} {cells : List (Cell γ)} {i : Int} {f : View γ → View γ} {vs : List (View γ)} (hf : Table.LooksOnly f)
    (h : Describes ax cells vs) : Describes ax cells (Views.updateAt i f vs).2 := by
  rcases Table.updateAt_state i f vs with e | ⟨j, _, e⟩
  · rw [e]; exact h
  · rw [e]; exact Table.modify_describes h j f hf

theorem Tidy.editView {t : Table γ} (ht : Tidy t) (ax : Axis) (pos : Int) (f : View γ → View γ) (hf : Table.LooksOnly f) :
    Tidy (exec (Table.editView ax pos f) t) := by
  unfold exec
  rw [Table.editView_run ht.inv]
  have hd := updated_describes (i := pos - 1) hf (grow_describes ht.inv.grid.valid (Table.base_describes ht.inv ax) pos)
  cases ax with
  | row =>
    refine ht.setRows hd ?_
    intro v hv
    obtain ⟨w, hw, e⟩ := updated_mem hf hv
    rw [e]
    exact grow_ordered ht.base w hw
  | col => exact ht.setCols hd

theorem refreshed_ordered {g : Grid γ} (hg : g.Inv) (v : View γ) : (refreshed .row g.cells v).owned.Pairwise (fun a b => a.min.x < b.min.x) := by
  have hs : (refreshed .row g.cells v).owned.Pairwise (fun a b => CornerBefore a.box.min b.box.min) := hg.sorted.filter _
  refine hs.imp_of_mem ?_
  intro a b ha hb hlt
  have e1 : StartsIn .row v.pos a := of_decide_eq_true (List.mem_filter.mp ha).2
  have e2 : StartsIn .row v.pos b := of_decide_eq_true (List.mem_filter.mp hb).2
  simp only [StartsIn, firstLine, Cell.min] at e1 e2 ⊢
  unfold CornerBefore at hlt; omega

/-- the first access to the rows -/
theorem Fresh.base {t : Table γ} (ht : Fresh t) : ∀ v ∈ t.baseViews .row, v.owned.Pairwise (fun a b => a.min.x < b.min.x) := by
  have e : t.baseViews .row = (Views.fit (lastLineOf .row t.grid) true []).map (refreshed .row t.grid.cells) := by
    show (t.rows).getD _ = _
    rw [ht.rows]; rfl
  intro v hv
  rw [e] at hv
  obtain ⟨w, _, rfl⟩ := List.mem_map.mp hv
  exact refreshed_ordered ht.inv.grid w

theorem Fresh.startRow {t : Table γ} (ht : Fresh t) (pos : Int) (f : View γ → View γ) (hf : Table.LooksOnly f) :
    Tidy (exec (Table.editView .row pos f) t) := by
  unfold exec
  rw [Table.editView_run ht.inv]
  have hd := updated_describes (i := pos - 1) hf (grow_describes ht.inv.grid.valid (Table.base_describes ht.inv .row) pos)
  refine ⟨Table.inv_setViews ht.inv .row _ hd, ⟨_, rfl, ?_⟩, ?_⟩
  · intro v hv
    obtain ⟨w, hw, e⟩ := updated_mem hf hv
    rw [e]
    exact grow_ordered ht.base w hw
  · intro c hc
    have hc' : c ∈ t.grid.cells := hc
    rw [ht.empty] at hc'; cases hc'

theorem Fresh.editCol {t : Table γ} (ht : Fresh t) (pos : Int) (f : View γ → View γ) (hf : Table.LooksOnly f) :
    Fresh (exec (Table.editView .col pos f) t) := by
  unfold exec
  rw [Table.editView_run ht.inv]
  have hd := updated_describes (i := pos - 1) hf (grow_describes ht.inv.grid.valid (Table.base_describes ht.inv .col) pos)
  exact ⟨Table.inv_setViews ht.inv .col _ hd, ht.empty, ht.rows⟩

theorem Fresh.views {t : Table γ} (ht : Fresh t) : Fresh (exec (Table.views .col) t) := by
  unfold exec
  rw [Table.views_run .col t ht.inv.grid]
  exact ⟨Table.inv_setViews ht.inv .col _ (Table.base_describes ht.inv .col), ht.empty, ht.rows⟩

/-- a cell inserted in a row -/
theorem Tidy.insert {t t' : Table γ} (ht : Tidy t) {pos : Int} (hpos : 1 ≤ pos) {content : Option γ} {st : Option Styles} {nature : Option String}
    {w h : Int} (hr : Table.insertCell .row pos content st nature w h t = (.ok (), t')) : Tidy t' := by
  obtain ⟨k, hff, he⟩ := insertCell_eq ht.inv .row pos hpos content st nature w h
  rw [hr] at he
  split at he
  · cases he
  · rename_i cell hcell
    have hg : (exec (Table.viewAt .row pos) t).grid = t.grid := by
      unfold exec; rw [Table.viewAt_run ht.inv]; simp
    refine ((ht.viewAt pos).put (cell_new_valid hcell).1 rfl ?_ ?_ he.symm).1
    · rw [hg]; exact hff.2.1
    · rw [hg]; exact fun x h1 h2 => hff.2.2 x h1 h2

/-- the holes of a list of places filled from left to right -/
theorem Tidy.fillList (content : Option γ) (st : Option Styles) (nature : Option String) : ∀ (L : List Coord) (t t' : Table γ), Tidy t →
    L.Pairwise CornerBefore → (∀ p ∈ L, ∀ x, 1 ≤ x → x < p.x → (⟨x, p.y⟩ : Coord) ∈ L ∨ Covered t.grid.cells ⟨x, p.y⟩) →
    forEach (Table.fillOne content st nature) L t = (.ok (), t') → Tidy t' := by
  intro L
  induction L with
  | nil => intro t t' ht _ _ h; cases h; exact ht
  | cons p L ih =>
    intro t t' ht hs hl h
    change PyM.bind (Table.fillOne content st nature p) (fun _ => forEach (Table.fillOne content st nature) L) t = _ at h
    unfold PyM.bind at h
    rw [List.pairwise_cons] at hs
    have hleft : ∀ x, 1 ≤ x → x < p.x → Covered t.grid.cells ⟨x, p.y⟩ := by
      intro x h1 h2
      rcases hl p (by simp) x h1 h2 with hm | hm
      · rcases List.mem_cons.mp hm with e | hm
        · exact absurd (congrArg Coord.x e) (by simp only; omega)
        · have := hs.1 _ hm
          unfold CornerBefore at this; simp only at this; omega
      · exact hm
    have hstep : ∀ t1, Table.fillOne content st nature p t = (.ok (), t1) →
        Tidy t1 ∧ Covered t1.grid.cells p ∧ ∀ q, Covered t.grid.cells q → Covered t1.grid.cells q := by
      intro t1 h1
      rw [Table.fillOne_run] at h1
      by_cases hh : t.grid.hasCoord p = true
      · rw [if_pos hh] at h1; cases h1
        exact ⟨ht, (hasCoord_grid _ _).mp hh, fun q hq => hq⟩
      · rw [if_neg hh] at h1
        split at h1
        · cases h1
        · rename_i cell hcell
          exact ht.put (cell_new_valid hcell).1 rfl (fun hc => hh ((hasCoord_grid _ _).mpr hc)) hleft h1
    cases hf : Table.fillOne content st nature p t with
    | mk r t1 =>
      rw [hf] at h
      cases r with
      | error e => cases h
      | ok u =>
        obtain ⟨h1, h2, h3⟩ := hstep t1 hf
        refine ih t1 t' h1 hs.2 ?_ h
        intro q hq x hx1 hx2
        rcases hl q (by simp [hq]) x hx1 hx2 with hm | hm
        · rcases List.mem_cons.mp hm with e | hm
          · rw [e]; exact .inr h2
          · exact .inl hm
        · exact .inr (h3 _ hm)

theorem pyRange_sorted (a b : Int) : (pyRange a b).Pairwise (· < ·) := by
  unfold pyRange
  rw [List.pairwise_map]
  refine List.pairwise_lt_range.imp ?_
  intro i j h; omega

theorem boxCoords_sorted (b : Box) : (Table.boxCoords b).Pairwise CornerBefore := by
  unfold Table.boxCoords
  rw [List.pairwise_flatMap]
  refine ⟨?_, ?_⟩
  · intro y _
    rw [List.pairwise_map]
    refine (pyRange_sorted _ _).imp ?_
    intro x x' h; exact .inr ⟨rfl, h⟩
  · refine (pyRange_sorted _ _).imp ?_
    intro y y' h p hp q hq
    obtain ⟨x, _, rfl⟩ := List.mem_map.mp hp
    obtain ⟨x', _, rfl⟩ := List.mem_map.mp hq
    unfold CornerBefore; simp only; omega

theorem Tidy.fill {t t' : Table γ} (ht : Tidy t) {b : Box} (hb : b.min.x = 1) {content : Option γ} {st : Option Styles} {nature : Option String}
    (h : Table.fillMissing b content st nature t = (.ok (), t')) : Tidy t' := by
  refine Tidy.fillList content st nature _ t t' ht (boxCoords_sorted b) ?_ h
  intro p hp x h1 h2
  left
  rw [mem_boxCoords] at hp ⊢
  simp only [InBox] at hp ⊢; omega

/-- the box around a tidy table starts in the first column -/
theorem Tidy.corner {t : Table γ} (ht : Tidy t) {b : Box} (h : t.boundingBox = .ok (some b)) : b.min.x = 1 := by
  rcases boundingBox_inv t.grid ht.inv.grid with ⟨_, h2⟩ | ⟨b', h1, h2, hv, hin, hleast⟩
  · rw [show t.boundingBox = t.grid.boundingBox from rfl, h2] at h; cases h
  · rw [show t.boundingBox = t.grid.boundingBox from rfl, h2] at h; cases h
    obtain ⟨c, hc⟩ := List.exists_mem_of_ne_nil _ h1
    have hcv := ht.inv.grid.valid c hc
    have hcov : Covered t.grid.cells ⟨1, c.min.y⟩ := by
      by_cases he : c.min.x = 1
      · refine ⟨c, hc, ?_⟩
        unfold Box.Valid at hcv
        simp only [InBox, Cell.min] at he ⊢; omega
      · refine ht.left c hc 1 (by omega) ?_
        unfold Box.Valid at hcv
        simp only [Cell.min] at he ⊢; omega
    obtain ⟨d, hd, hin'⟩ := hcov
    have := hin d hd ⟨1, c.min.y⟩ hin'
    unfold Box.Valid at hv
    simp only [InBox] at this; omega

theorem Tidy.fillHoles {t t' : Table Content} (ht : Tidy t) (h : CalsP.fillHoles t = (.ok (), t')) : Tidy t' := by
  unfold CalsP.fillHoles at h
  simp only [bind_run, get_run, lift_run] at h
  cases hb : t.boundingBox with
  | error e => rw [hb] at h; cases h
  | ok bb =>
    rw [hb] at h
    cases bb with
    | none => cases h
    | some b => exact ht.fill (ht.corner hb) h

theorem Fresh.fillHoles {t t' : Table Content} (ht : Fresh t) (h : CalsP.fillHoles t = (.ok (), t')) : False := by
  unfold CalsP.fillHoles at h
  simp only [bind_run, get_run, lift_run] at h
  have : t.boundingBox = .ok none := by
    rcases boundingBox_inv t.grid ht.inv.grid with ⟨_, h2⟩ | ⟨b', h1, _⟩
    · exact h2
    · exact absurd ht.empty h1
  rw [this] at h
  cases h

theorem Tidy.expand {t t' : Table γ} (ht : Tidy t) {v : PyVal} {w h : Int} {f : γ → γ → Except PyErr γ}
    (hr : Table.expand v w h f t = (.ok (), t')) : Tidy t' := by
  have hin := (expand_inv v w h f t.grid ht.inv.grid)
  rcases Table.refreshing_run ht.inv (Grid.expand v w h f) (fun e g' he => expand_error_same he) hin with ⟨e, _, h2⟩ | ⟨new, g', h1, h2⟩
  · rw [show Table.expand v w h f t = _ from h2] at hr; cases hr
  · rw [show Table.expand v w h f t = _ from h2] at hr
    cases hr
    rw [h1] at hin
    refine ⟨Table.refreshed_tinv ht.inv g' hin, ⟨_, rfl, ?_⟩, ?_⟩
    · intro v hv
      obtain ⟨w, _, rfl⟩ := List.mem_map.mp hv
      exact refreshed_ordered hin w
    · rw [expand_run] at h1
      split at h1
      · cases h1
      · rename_i cell hcell
        have hcm := getItem_mem hcell
        obtain ⟨a, b, M, U, first, rest, ha, hb, hperm, _, hU, hM, hUn, hm, hbox, _, _, _, hp', _, _, hcov⟩ := merge_effect_inv t.grid ht.inv.grid _ _ f new g' h1
        cases ha
        intro c hc x hx1 hx2
        rw [hcov]
        left
        rcases List.mem_cons.mp (hp'.mem_iff.mp hc) with rfl | hc
        · simp only [Cell.min, hbox] at hx2 ⊢
          exact ht.left cell hcm x hx1 hx2
        · exact ht.left c (hU.mem hc) x hx1 hx2

end Benker
