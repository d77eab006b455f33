import Verif.Lemmas.Refill
import Verif.Lemmas.CalsParser
import Verif.Props.GridMerge

/-! Filling a table row by row: a new cell is placed on the right of the row, or the cell above is extended. -/

namespace Benker
open PyM Table
variable {δ : Type}

/-- `r` rows are started, the last one is filled up to the column `c`; the previous ones are filled up to the column `W` -/
structure RowFill (W r : Nat) (c : Int) (nat : Option String) (t : Table δ) : Prop where
  inv : t.Inv
  disjoint : DisjointCells t.grid.cells
  covered : ∀ p, Covered t.grid.cells p ↔ (1 ≤ p.x ∧ p.x ≤ W ∧ 1 ≤ p.y ∧ p.y < r) ∨ (p.y = r ∧ 1 ≤ p.y ∧ 1 ≤ p.x ∧ p.x ≤ c)
  started : 1 ≤ r → t.rows = some (t.baseViews .row)
  rows : (t.baseViews .row).length = r
  cols : (t.baseViews .col).length ≤ W
  nature : ∀ i, i + 1 = r → (t.baseViews .row)[i]?.map (·.nature) = some nat

/-- the corner of a cell is covered -/
theorem covered_box {cells : List (Cell δ)} {d : Cell δ} (hd : d ∈ cells) {p : Coord} (hp : InBox p d.box) : Covered cells p := ⟨d, hd, hp⟩

theorem RowFill.box {W r : Nat} {c : Int} {nat : Option String} {t : Table δ} (ht : RowFill W r c nat t) (hc : c ≤ W) {d : Cell δ} (hd : d ∈ t.grid.cells) :
    d.box.max.x ≤ W ∧ d.box.max.y ≤ r := by
  have hv := ht.inv.grid.valid d hd
  unfold Box.Valid at hv
  have := (ht.covered d.box.max).mp (covered_box hd (by simp only [InBox]; omega))
  omega

theorem disjoint_unique {cells : List (Cell δ)} (h : DisjointCells cells) {a b : Cell δ} (ha : a ∈ cells) (hb : b ∈ cells) {p : Coord}
    (h1 : InBox p a.box) (h2 : InBox p b.box) : a = b := by
  unfold DisjointCells at h
  induction cells with
  | nil => cases ha
  | cons c l ih =>
    rw [List.pairwise_cons] at h
    rcases List.mem_cons.mp ha with rfl | ha
    · rcases List.mem_cons.mp hb with rfl | hb
      · rfl
      · exact absurd ⟨p, h1, h2⟩ (h.1 b hb)
    · rcases List.mem_cons.mp hb with hb' | hb
      · rw [hb'] at h2
        exact absurd ⟨p, h2, h1⟩ (h.1 a ha)
      · exact ih h.2 ha hb

theorem pairwise_perm {cells cells' : List (Cell δ)} (h : DisjointCells cells) (hp : cells'.Perm cells) : DisjointCells cells' := by
  unfold DisjointCells at *
  exact hp.symm.pairwise h (fun h1 ⟨p, h2, h3⟩ => h1 ⟨p, h3, h2⟩)

/-- the views which exist keep their nature and styles -/
def KeepLooks (t t' : Table δ) : Prop :=
  ∀ (ax : Axis) (vs : List (View δ)) (i : Nat) (v : View δ), t.getViews ax = some vs → vs[i]? = some v →
    ∃ (vs' : List (View δ)) (v' : View δ), t'.getViews ax = some vs' ∧ vs'[i]? = some v' ∧ v'.nature = v.nature ∧ v'.styles = v.styles


theorem KeepLooks.trans {t t' t'' : Table δ} (h : KeepLooks t t') (h' : KeepLooks t' t'') : KeepLooks t t'' := by
  intro ax vs i v h1 h2
  obtain ⟨vs', v', h3, h4, h5, h6⟩ := h ax vs i v h1 h2
  obtain ⟨vs'', v'', h7, h8, h9, h10⟩ := h' ax vs' i v' h3 h4
  exact ⟨vs'', v'', h7, h8, h9.trans h5, h10.trans h6⟩

theorem refreshed_looks (ax : Axis) (g : Grid δ) (vs : List (View δ)) (i : Nat) (v : View δ) (h : vs[i]? = some v) (h' : (i : Int) < lastLineOf ax g) :
    ∃ v', (refreshedViews ax g vs)[i]? = some v' ∧ v'.nature = v.nature ∧ v'.styles = v.styles := by
  obtain ⟨hlt, rfl⟩ := List.getElem?_eq_some_iff.mp h
  have hl := fit_true_length (lastLineOf ax g) (by omega) vs
  unfold refreshedViews
  rw [List.getElem?_map, List.getElem?_eq_getElem (by omega), fit_true_getElem _ (by omega), dif_pos hlt]
  exact ⟨_, rfl, rfl, rfl⟩

theorem baseViews_some {t : Table δ} {ax : Axis} {vs : List (View δ)} (h : t.getViews ax = some vs) (g : Grid δ) :
    ({ t with grid := g } : Table δ).baseViews ax = vs := by
  cases ax with
  | row => have h' : t.rows = some vs := h; show (t.rows).getD _ = _; rw [h']; rfl
  | col => have h' : t.cols = some vs := h; show (t.cols).getD _ = _; rw [h']; rfl

/-- a new cell on the right of the row -/
theorem RowFill.insert {W r : Nat} {c : Int} {nat : Option String} {t : Table δ} (ht : RowFill W r c nat t) (hr : 1 ≤ r) (hc : 0 ≤ c) (w : Int)
    (hw : 1 ≤ w) (hcw : c + w ≤ W) (content : Option δ) (st : Option Styles) :
    ∃ t', insertCell .row r content st none w 1 t = (.ok (), t') ∧ RowFill W r (c + w) nat t' ∧
      t'.styles = t.styles ∧ t'.nature = t.nature ∧ KeepLooks t t' ∧
      t'.grid.cells = t.grid.cells ++ [⟨content, st.getD [], nat, ⟨⟨c + 1, r⟩, ⟨c + w, r⟩⟩⟩] := by
  obtain ⟨k, hff, he⟩ := insertCell_eq ht.inv .row r (by omega) content st none w 1
  have hff' : FirstFree .row r t.grid.cells (c + 1) := by
    refine ⟨by omega, ?_, ?_⟩
    · rw [ht.covered]; simp only [Axis.coord]; omega
    · intro j h1 h2
      rw [ht.covered]; exact .inr ⟨rfl, by show (1 : Int) ≤ r; omega, h1, by show j ≤ c; omega⟩
  have hk := firstFree_unique hff hff'
  subst hk
  have hbase := ht.started hr
  have hlen := ht.rows
  have hvt : exec (viewAt .row (r : Int)) t = t := by
    unfold exec; rw [viewAt_run ht.inv, grow_noop _ _ (by omega)]
    exact setViews_self .row _ t hbase
  have hvn : viewNature t .row r = nat := by
    unfold viewNature eval
    rw [viewAt_run ht.inv, grow_noop _ _ (by omega)]
    rw [pyGet_pos _ _ (by omega) (by omega)]
    have := ht.nature (r - 1) (by omega)
    have e : ((r : Int) - 1).toNat = r - 1 := by omega
    rw [List.getElem?_eq_getElem (by omega)] at this
    simp only [Option.map_some, Option.some.injEq] at this
    simp only [e]
    exact this
  rw [hvt, hvn, cell_new_ok _ _ _ (by simp only [Axis.coord]; omega)] at he
  simp only [Option.none_or, Axis.coord] at he
  have hbox : (⟨⟨c + 1, r⟩, ⟨c + 1 + w - 1, (r : Int) + 1 - 1⟩⟩ : Box) = ⟨⟨c + 1, r⟩, ⟨c + w, r⟩⟩ := by
    apply box_ext <;> simp only <;> omega
  rw [hbox] at he
  generalize hnew : (⟨content, st.getD [], nat, ⟨⟨c + 1, r⟩, ⟨c + w, r⟩⟩⟩ : Cell δ) = new at he
  have hnb : new.box = ⟨⟨c + 1, r⟩, ⟨c + w, r⟩⟩ := by rw [← hnew]
  have hself : movedTo new ⟨c + 1, r⟩ = new := by
    rw [← hnew]
    simp only [movedTo, Cell.mk.injEq, true_and]
    apply box_ext <;> simp only <;> omega
  have hnv : new.box.Valid := by rw [hnb]; unfold Box.Valid; simp only; omega
  have hnoov : ∀ d ∈ t.grid.cells, ¬ Overlap d.box new.box := by
    rintro d hd ⟨p, h1, h2⟩
    have := (ht.covered p).mp (covered_box hd h1)
    rw [hnb] at h2
    simp only [InBox] at h2
    omega
  have hno : ∀ d ∈ t.grid.cells, d.box.intersect new.box = false := by
    intro d hd
    rw [Bool.eq_false_iff]
    intro hx
    exact hnoov d hd (intersect_overlap hx (ht.inv.grid.valid d hd) hnv)
  rcases setItem_run ht.inv (.coord ⟨c + 1, r⟩) new hnv with ⟨e, h1, h2⟩ | ⟨p, g', hp, hs, hr'⟩
  · exfalso
    rcases setItem_cases (.coord ⟨c + 1, r⟩) new hnv t.grid with ⟨_, h3⟩ | ⟨p, h3, ⟨hneg, _⟩ | ⟨_, ⟨⟨d, hd, hx⟩, _⟩ | ⟨_, h4⟩⟩⟩
    · cases h3
    · cases h3; exact hneg (by simp only; omega)
    · cases h3; rw [hself] at hx; rw [hno d hd] at hx; cases hx
    · rw [h4] at h1; cases h1
  · cases hp
    rw [hself] at hr'
    refine ⟨_, he.trans hr', ?_⟩
    have hinv' : (exec (setItem (.coord ⟨c + 1, r⟩) new) t).Inv := setItem_tinv ht.inv _ new hnv
    unfold exec at hinv'
    rw [hr'] at hinv'
    obtain ⟨_, new', e1, e2, _, _, _, _, _, e8, -⟩ := set_get_inv _ ht.inv.grid _ new hnv g' hs
    obtain ⟨_, new'', e1', hn'', e2', -⟩ := setItem_ok_facts ht.inv.grid hnv hs
    rw [e2] at e2'
    cases e2'
    cases e1'
    rw [hself] at hn''
    subst hn''
    have hg' : g'.Inv := hinv'.grid
    have hcells : g'.cells = t.grid.cells ++ [new'] := by
      refine corner_last e8 hg'.sorted ht.inv.grid.sorted ?_
      intro d hd
      have hv := ht.inv.grid.valid d hd
      unfold Box.Valid at hv
      have hcov := (ht.covered d.box.min).mp (covered_box hd (by simp only [InBox]; omega))
      rw [hnb]
      unfold CornerBefore
      simp only
      omega
    have hbr : ({ t with grid := g' } : Table δ).baseViews .row = t.baseViews .row := by
      show (t.rows).getD _ = _
      rw [hbase]; rfl
    have hlr := adopted_length .row new' (t.baseViews .row)
    have l1 : lastLine .row new' = r := by unfold lastLine; simp only [Cell.max, hnb]
    have l2 : lastLine .col new' = c + w := by unfold lastLine; simp only [Cell.max, hnb]
    have hbc : (({ t with grid := g' } : Table δ).baseViews .col).length ≤ W := by
      have hb0 := ht.cols
      show ((t.cols).getD _).length ≤ W
      cases hcv : t.cols with
      | some vs =>
        have : t.baseViews .col = vs := by show (t.cols).getD _ = _; rw [hcv]; rfl
        rw [this] at hb0; exact hb0
      | none =>
        simp only [Option.getD_none, List.length_map]
        have hs' := lastLineOf_spec .col g' hg'
        have hl := fit_true_length (γ := δ) (lastLineOf .col g') hs'.2.1 []
        have : lastLineOf .col g' ≤ W := by
          have hne : g'.cells ≠ [] := by rw [hcells]; simp
          obtain ⟨d, hd, hde⟩ := hs'.2.2.1 hne
          rw [← hde]
          rw [hcells] at hd
          rcases List.mem_append.mp hd with hd | hd
          · have := (ht.box (by omega) hd).1
            exact this
          · rw [List.mem_singleton] at hd; subst hd; rw [l2]; exact hcw
        show (Views.fit (lastLineOf .col g') true []).length ≤ W
        omega
    have hlc := adopted_length .col new' (({ t with grid := g' } : Table δ).baseViews .col)
    refine ⟨⟨hinv', ?_, ?_, fun _ => rfl, ?_, ?_, ?_⟩, rfl, rfl, ?_, ?_⟩
    · show DisjointCells g'.cells
      rw [hcells]
      unfold DisjointCells
      rw [List.pairwise_append]
      refine ⟨ht.disjoint, by simp, ?_⟩
      intro a ha b hb
      rw [List.mem_singleton] at hb; subst hb
      exact hnoov a ha
    · intro p
      show Covered g'.cells p ↔ _
      rw [hcells]
      have hsplit : Covered (t.grid.cells ++ [new']) p ↔ Covered t.grid.cells p ∨ InBox p new'.box := by
        constructor
        · rintro ⟨d, hd, hpd⟩
          rcases List.mem_append.mp hd with hd | hd
          · exact .inl ⟨d, hd, hpd⟩
          · rw [List.mem_singleton] at hd; subst hd; exact .inr hpd
        · rintro (⟨d, hd, hpd⟩ | h)
          · exact ⟨d, by simp [hd], hpd⟩
          · exact ⟨new', by simp, h⟩
      rw [hsplit, ht.covered, hnb]
      simp only [InBox]
      omega
    · show (adoptedViews .row new' _).length = r
      rw [hbr]; omega
    · show (adoptedViews .col new' _).length ≤ W
      omega
    · intro i hi
      show (adoptedViews .row new' _)[i]?.map _ = _
      rw [hbr, adopted_nature _ _ _ _ (by omega)]
      exact ht.nature i hi
    · intro ax vs i v h1 h2
      obtain ⟨v', h3, h4⟩ := adopted_looks ax new' vs i v h2
      refine ⟨adoptedViews ax new' vs, v', ?_, h3, h4⟩
      have := baseViews_some h1 g'
      cases ax <;> exact congrArg (fun vs => some (adoptedViews _ new' vs)) this
    · show g'.cells = _
      rw [hcells]

theorem refreshed_nature (ax : Axis) (g : Grid δ) (vs : List (View δ)) (i : Nat) (h : i < vs.length) (h' : (i : Int) < lastLineOf ax g) :
    (refreshedViews ax g vs)[i]?.map (·.nature) = vs[i]?.map (·.nature) := by
  have hl := fit_true_length (lastLineOf ax g) (by omega) vs
  unfold refreshedViews
  rw [List.getElem?_map, List.getElem?_eq_getElem (by omega), fit_true_getElem _ (by omega), dif_pos h, List.getElem?_eq_getElem h]
  rfl

theorem refreshed_length (ax : Axis) (g : Grid δ) (h : g.Inv) (vs : List (View δ)) :
    ((refreshedViews ax g vs).length : Int) = lastLineOf ax g := by
  unfold refreshedViews
  rw [List.length_map, fit_true_length _ (lastLineOf_spec ax g h).2.1]

theorem filter_single {α : Type} {p : α → Bool} {l : List α} (hn : l.Nodup) {d : α} (hd : d ∈ l) (h : ∀ e ∈ l, p e = true ↔ e = d) : l.filter p = [d] := by
  induction l with
  | nil => cases hd
  | cons a l ih =>
    rw [List.nodup_cons] at hn
    by_cases ha : a = d
    · subst ha
      rw [List.filter_cons_of_pos ((h a (by simp)).mpr rfl), List.filter_eq_nil_iff.mpr]
      intro e he hp
      have := (h e (by simp [he])).mp hp
      rw [this] at he; exact hn.1 he
    · rw [List.filter_cons_of_neg (fun hp => ha ((h a (by simp)).mp hp))]
      refine ih hn.2 ?_ (fun e he => h e (by simp [he]))
      rcases List.mem_cons.mp hd with h' | h'
      · exact absurd h'.symm ha
      · exact h'

/-- the cell above the next columns of the row is extended -/
theorem RowFill.expand {W r : Nat} {c : Int} {nat : Option String} {t : Table δ} (ht : RowFill W r c nat t) (hr : 1 ≤ r) (hc : 0 ≤ c) (w : Int)
    (hw : 1 ≤ w) (hcw : c + w ≤ W) (f : δ → δ → Except PyErr δ) (d : Cell δ) (hd : d ∈ t.grid.cells)
    (hx : d.box.min.x = c + 1 ∧ d.box.max.x = c + w ∧ d.box.max.y = (r : Int) - 1) :
    ∃ t', Table.expand (.tuple [.int (c + w), .int ((r : Int) - 1)]) 0 1 f t = (.ok (), t') ∧ RowFill W r (c + w) nat t' ∧
      t'.styles = t.styles ∧ t'.nature = t.nature ∧ KeepLooks t t' ∧
      t'.grid.cells = t.grid.cells.map (fun e => if e.box = d.box then { e with box := ⟨e.box.min, ⟨e.box.max.x, e.box.max.y + 1⟩⟩ } else e) := by
  have hdv := ht.inv.grid.valid d hd
  have hdv' := hdv
  unfold Box.Valid at hdv'
  have hin : InBox ⟨c + w, (r : Int) - 1⟩ d.box := by simp only [InBox]; omega
  have hget : t.grid.getItem (.tuple [.int (c + w), .int ((r : Int) - 1)]) = .ok d := by
    obtain ⟨_, e, he, h1, h2⟩ := ((C19_lookup t.grid (.tuple [.int (c + w), .int ((r : Int) - 1)])).1 ⟨c + w, (r : Int) - 1⟩ rfl).1 ⟨d, hd, hin⟩
    rw [h1, disjoint_unique ht.disjoint he hd h2 hin]
  have hmerge := expand_run (.tuple [.int (c + w), .int ((r : Int) - 1)]) 0 1 f t.grid
  rw [hget] at hmerge
  simp only [Coord.addSize, Int.add_zero] at hmerge
  generalize hnb : (⟨d.box.min, ⟨d.box.max.x, d.box.max.y + 1⟩⟩ : Box) = nb at *
  have hnbv : nb.Valid := by rw [← hnb]; unfold Box.Valid; simp only; omega
  -- a cell which meets the extended area is the extended cell
  have hmeet : ∀ e ∈ t.grid.cells, Overlap e.box nb → e = d := by
    rintro e he ⟨p, h1, h2⟩
    rw [← hnb] at h2
    have hcov := (ht.covered p).mp (covered_box he h1)
    refine disjoint_unique ht.disjoint he hd h1 ?_
    simp only [InBox] at h2 ⊢
    omega
  have hhas : ∀ e ∈ t.grid.cells, nb.hasBox e.box = true ↔ e = d := by
    intro e he
    have hev := ht.inv.grid.valid e he
    rw [hasBox_within hev]
    unfold Box.Valid at hev
    constructor
    · intro hw'
      have hm : InBox e.box.min e.box := by simp only [InBox]; omega
      exact hmeet e he ⟨e.box.min, hm, hw' _ hm⟩
    · rintro rfl p hp
      rw [← hnb]; simp only [InBox] at hp ⊢; omega
  have hnd : t.grid.cells.Nodup := ht.inv.grid.sorted.imp (by
    intro a b h hab; subst hab; unfold CornerBefore at h; omega)
  have henc : enclosed nb t.grid.cells = [d] := by
    unfold enclosed
    exact filter_single hnd hd hhas
  have hexp : ∃ g', Grid.expand (.tuple [.int (c + w), .int ((r : Int) - 1)]) 0 1 f t.grid = (.ok { d with box := nb }, g') := by
    rw [hmerge]
    rcases merge_cases (.coord d.box.min) (.coord ⟨d.box.max.x, d.box.max.y + 1⟩) f t.grid with ⟨h | h, _⟩ | ⟨a, b, ha, hb, h⟩
    · cases h
    · cases h
    · cases ha; cases hb
      rw [hnb] at h
      rcases h with ⟨h, _⟩ | ⟨_, ⟨⟨e, he, h1, h2⟩, _⟩ | ⟨_, ⟨h, _⟩ | ⟨first, rest, h, h'⟩⟩⟩
      · exact absurd hnbv h
      · have := hmeet e he (intersect_overlap h2 (ht.inv.grid.valid e he) hnbv)
        rw [(hhas e he).mpr this] at h1; cases h1
      · rw [henc] at h; cases h
      · rw [henc] at h
        cases h
        rcases h' with ⟨_, h1, _⟩ | ⟨new, h1, h2⟩
        · cases h1
        · cases h1; exact ⟨_, h2⟩
  obtain ⟨g', hg⟩ := hexp
  have hinvg : g'.Inv := by
    have := merge_inv (.coord d.box.min) (.coord ⟨d.box.max.x, d.box.max.y + 1⟩) f _ ht.inv.grid
    rw [← hmerge, hg] at this; exact this
  have hcells : g'.cells = t.grid.cells.map (fun e => if e.box = d.box then { e with box := ⟨e.box.min, ⟨e.box.max.x, e.box.max.y + 1⟩⟩ } else e) := by
    obtain ⟨a, b, M, U, first, rest, ha, hb, hperm, hM, hU, hMw, hUw, hMe, -, -, -, -, hp', -⟩ :=
      merge_effect_inv t.grid ht.inv.grid _ _ f _ g' (hmerge ▸ hg)
    cases ha; cases hb
    refine sorted_perm_eq hinvg.sorted ?_ ?_
    · rw [List.pairwise_map]
      refine ht.inv.grid.sorted.imp ?_
      intro a b hab
      have e1 : ∀ a : Cell δ, (if a.box = d.box then ({ a with box := ⟨a.box.min, ⟨a.box.max.x, a.box.max.y + 1⟩⟩ } : Cell δ) else a).box.min = a.box.min := by
        intro a; split <;> rfl
      rw [e1, e1]; exact hab
    · refine hp'.trans (List.Perm.symm ?_)
      refine (hperm.symm.map _).trans ?_
      have hMd : M = [d] := by
        have h1 : ∀ e ∈ M, e = d := by
          intro e he
          refine (hhas e (hM.mem he)).mp ?_
          rw [hasBox_within (ht.inv.grid.valid e (hM.mem he)), ← hnb]
          exact hMw e he
        have h2 := hnd.sublist hM
        rw [hMe] at h1 h2 ⊢
        have := h1 first (by simp)
        cases rest with
        | nil => rw [this]
        | cons x l =>
          have h3 := h1 x (by simp)
          rw [this, h3] at h2
          simp at h2
      have hUd : ∀ e ∈ U, e.box ≠ d.box := by
        intro e he hb
        refine hUw e he ?_
        rw [hnb]
        have := disjoint_unique ht.disjoint (hU.mem he) hd (p := d.box.min) (by rw [hb]; simp only [InBox]; omega) (by simp only [InBox]; omega)
        rw [← hasBox_within (ht.inv.grid.valid e (hU.mem he))]
        exact (hhas e (hU.mem he)).mpr this
      rw [hMd, List.map_append]
      simp only [List.map_cons, List.map_nil, if_pos, hnb, List.singleton_append]
      have e2 : U.map (fun e => if e.box = d.box then ({ e with box := ⟨e.box.min, ⟨e.box.max.x, e.box.max.y + 1⟩⟩ } : Cell δ) else e) = U := by
        conv => rhs; rw [← List.map_id U]
        exact List.map_congr_left (fun e he => if_neg (hUd e he))
      rw [e2]
  have hcov : ∀ p, Covered g'.cells p ↔ Covered t.grid.cells p ∨ InBox p nb := by
    obtain ⟨a, b, M, U, first, rest, ha, hb, -, -, -, -, -, -, -, -, -, -, -, -, -, h⟩ :=
      merge_effect_inv t.grid ht.inv.grid _ _ f _ g' (hmerge ▸ hg)
    cases ha; cases hb
    rw [hnb] at h
    exact h
  have hcov' : ∀ p, Covered g'.cells p ↔ (1 ≤ p.x ∧ p.x ≤ W ∧ 1 ≤ p.y ∧ p.y < r) ∨ (p.y = r ∧ 1 ≤ p.y ∧ 1 ≤ p.x ∧ p.x ≤ c + w) := by
    intro p
    rw [hcov, ht.covered, ← hnb]
    have hd1 := (ht.covered d.box.min).mp (covered_box hd (by simp only [InBox]; omega))
    simp only [InBox]
    omega
  have hlast : ∀ ax, lastLineOf ax g' = (match ax with | .row => (r : Int) | .col => lastLineOf .col g') ∧ (ax = .col → lastLineOf ax g' ≤ W) := by
    have hne : g'.cells ≠ [] := by
      intro h
      obtain ⟨e, he, -⟩ := (hcov d.box.min).mpr (.inl (covered_box hd (by simp only [InBox]; omega)))
      rw [h] at he; cases he
    intro ax
    obtain ⟨h1, h2, h3, -⟩ := lastLineOf_spec ax g' hinvg
    obtain ⟨e, he, hel⟩ := h3 hne
    have hev := hinvg.valid e he
    unfold Box.Valid at hev
    have hm := (hcov' e.box.max).mp (covered_box he (by simp only [InBox]; omega))
    cases ax with
    | row =>
      refine ⟨?_, nofun⟩
      obtain ⟨e', he', hp'⟩ := (hcov' ⟨c + w, r⟩).mpr (.inr ⟨rfl, by show (1 : Int) ≤ r; omega, by show 1 ≤ c + w; omega, Int.le_refl _⟩)
      have := h1 e' he'
      unfold lastLine at this hel
      simp only [Cell.max, InBox] at this hel hp'
      simp only
      omega
    | col =>
      refine ⟨rfl, fun _ => ?_⟩
      unfold lastLine at hel
      simp only [Cell.max] at hel
      omega
  have hrun := refreshing_run ht.inv (Grid.expand (.tuple [.int (c + w), .int ((r : Int) - 1)]) 0 1 f)
    (fun e g'' h => expand_error_same h) (by rw [hg]; exact hinvg)
  rcases hrun with ⟨e, h1, _⟩ | ⟨a, g'', h1, h2⟩
  · rw [hg] at h1; cases h1
  · rw [hg] at h1
    cases h1
    have hbr : ({ t with grid := g' } : Table δ).baseViews .row = t.baseViews .row := by
      show (t.rows).getD _ = _
      rw [ht.started hr]; rfl
    refine ⟨_, h2, ⟨refreshed_tinv ht.inv g' hinvg, ?_, ?_, fun _ => rfl, ?_, ?_, ?_⟩, rfl, rfl, ?_, hcells⟩
    · show DisjointCells g'.cells
      rw [hcells]
      unfold DisjointCells
      rw [List.pairwise_map]
      refine List.Pairwise.imp_of_mem ?_ (ht.disjoint.and hnd)
      intro a b ha hb ⟨hab, hne⟩ ⟨p, h3, h4⟩
      have key : ∀ a ∈ t.grid.cells, ∀ p, InBox p (if a.box = d.box then ({ a with box := ⟨a.box.min, ⟨a.box.max.x, a.box.max.y + 1⟩⟩ } : Cell δ) else a).box →
          InBox p a.box ∨ (a = d ∧ ¬ Covered t.grid.cells p) := by
        intro a ha p hp
        split at hp
        · rename_i hb
          by_cases hp' : InBox p a.box
          · exact .inl hp'
          · refine .inr ⟨disjoint_unique ht.disjoint ha hd (p := d.box.min) (by rw [hb]; simp only [InBox]; omega) (by simp only [InBox]; omega), ?_⟩
            rw [ht.covered]
            rw [hb] at hp hp'
            simp only [InBox] at hp hp' ⊢
            omega
        · exact .inl hp
      rcases key a ha p h3 with h5 | ⟨h5, h6⟩ <;> rcases key b hb p h4 with h7 | ⟨h7, h8⟩
      · exact hab ⟨p, h5, h7⟩
      · exact h8 ⟨a, ha, h5⟩
      · exact h6 ⟨b, hb, h7⟩
      · exact hne (h5.trans h7.symm)
    · exact hcov'
    · show (refreshedViews .row g' _).length = r
      have := refreshed_length .row g' hinvg (({ t with grid := g' } : Table δ).baseViews .row)
      rw [(hlast .row).1] at this
      simp only at this
      omega
    · show (refreshedViews .col g' _).length ≤ W
      have := refreshed_length .col g' hinvg (({ t with grid := g' } : Table δ).baseViews .col)
      have := (hlast .col).2 rfl
      omega
    · intro i hi
      show (refreshedViews .row g' _)[i]?.map _ = _
      have hl := ht.rows
      rw [hbr, refreshed_nature _ _ _ _ (by omega) (by rw [(hlast .row).1]; simp only; omega)]
      exact ht.nature i hi
    · intro ax vs i v h1 h2
      have hb := baseViews_some h1 g'
      have hb' := baseViews_some h1 t.grid
      have hi : (i : Int) < lastLineOf ax g' := by
        obtain ⟨hlt, -⟩ := List.getElem?_eq_some_iff.mp h2
        cases ax with
        | row =>
          have hl := ht.rows
          have hb'' : t.baseViews .row = vs := hb'
          rw [(hlast .row).1]
          simp only
          rw [hb''] at hl; omega
        | col =>
          have hl := ht.cols
          have hb'' : t.baseViews .col = vs := hb'
          rw [hb''] at hl
          have hd1 := (ht.covered d.box.min).mp (covered_box hd (by simp only [InBox]; omega))
          obtain ⟨e', he', hp'⟩ := (hcov' ⟨W, (r : Int) - 1⟩).mpr (.inl ⟨by show (1 : Int) ≤ W; omega, Int.le_refl _, by show (1 : Int) ≤ (r : Int) - 1; omega, by show (r : Int) - 1 < r; omega⟩)
          have := (lastLineOf_spec .col g' hinvg).1 e' he'
          unfold lastLine at this
          simp only [Cell.max, InBox] at this hp'
          omega
      obtain ⟨v', h3, h4⟩ := refreshed_looks ax g' vs i v h2 hi
      refine ⟨refreshedViews ax g' vs, v', ?_, h3, h4⟩
      cases ax <;> exact congrArg (fun vs => some (refreshedViews _ g' vs)) hb

/-- the start of the next row -/
theorem RowFill.startRow {W r : Nat} {nat nat' : Option String} {t : Table δ} (ht : RowFill W r W nat t) (f : View δ → View δ) (hf : LooksOnly f)
    (hn : ∀ v, (f v).nature = nat') :
    ∃ t', editView .row ((r : Int) + 1) f t = (.ok (), t') ∧ RowFill W (r + 1) 0 nat' t' ∧ t'.grid = t.grid ∧ t'.styles = t.styles ∧ t'.nature = t.nature ∧
      KeepLooks t t' ∧ (t'.baseViews .row)[r]? = some (f (View.new ((r : Int) + 1))) := by
  have n1 := ht.rows
  have hl := grow_length ((r : Int) + 1) (t.baseViews .row)
  have hup := updateAt_pos r f (Views.grow ((r : Int) + 1) (t.baseViews .row)) (by omega)
  have e : ((r : Int) + 1 - 1) = (r : Int) := by omega
  have hr := Table.editView_run ht.inv .row ((r : Int) + 1) f
  rw [e, hup] at hr
  simp only at hr
  have hinv' := editView_tinv ht.inv .row ((r : Int) + 1) f hf
  unfold exec at hinv'
  rw [hr] at hinv'
  refine ⟨_, hr, ⟨hinv', by rw [grid_setViews]; exact ht.disjoint, ?_, fun _ => by rw [baseViews_setViews]; rfl, ?_, ht.cols, ?_⟩,
    grid_setViews .., styles_setViews .., nature_setViews .., ?_, ?_⟩
  · intro p
    rw [grid_setViews, ht.covered]
    omega
  · rw [baseViews_setViews, List.length_modify]; omega
  · intro i hi
    have : r = i := by omega
    subst this
    rw [baseViews_setViews, List.getElem?_modify, List.getElem?_eq_getElem (by omega)]
    simp [hn]
  · intro ax vs i v h1 h2
    cases ax with
    | col => exact ⟨vs, v, h1, h2, rfl, rfl⟩
    | row =>
      have hb : t.baseViews .row = vs := baseViews_some h1 t.grid
      obtain ⟨hlt, hv⟩ := List.getElem?_eq_some_iff.mp h2
      refine ⟨_, v, rfl, ?_, rfl, rfl⟩
      have hne : r ≠ i := by rw [hb] at n1; omega
      rw [List.getElem?_modify, List.getElem?_eq_getElem (by rw [hb] at hl n1 ⊢; omega), grow_getElem, dif_pos (by rw [hb]; exact hlt)]
      simp only [if_neg hne, hb, hv, Option.map_some]
      rfl
  · rw [baseViews_setViews, List.getElem?_modify, List.getElem?_eq_getElem (by omega), grow_getElem, dif_neg (by omega)]
    simp

/-- a full table has all its columns -/
theorem RowFill.colsFull {W r : Nat} {nat : Option String} {t : Table δ} (ht : RowFill W r W nat t) (hr : 1 ≤ r) (hW : 1 ≤ W) :
    (t.baseViews .col).length = W := by
  have hd := base_describes ht.inv .col
  obtain ⟨e, he, hp⟩ := (ht.covered ⟨W, r⟩).mpr (.inr ⟨rfl, by show (1 : Int) ≤ r; omega, by show (1 : Int) ≤ W; omega, Int.le_refl _⟩)
  have := hd.enough e he
  have h1 := ht.cols
  unfold lastLine at this
  simp only [Cell.max, InBox] at this hp
  omega

/-- the columns are created when they are looked at -/
theorem RowFill.seeCols {W r : Nat} {c : Int} {nat : Option String} {t : Table δ} (ht : RowFill W r c nat t) :
    RowFill W r c nat (t.setViews .col (t.baseViews .col)) := by
  have hb : ∀ ax, (t.setViews .col (t.baseViews .col)).baseViews ax = t.baseViews ax := by
    intro ax
    by_cases h : ax = .col
    · subst h; rw [baseViews_setViews]
    · rw [baseViews_setViews_ne h]
  refine ⟨inv_setViews ht.inv .col _ (base_describes ht.inv .col), by rw [grid_setViews]; exact ht.disjoint, by rw [grid_setViews]; exact ht.covered, ?_, ?_, ?_, ?_⟩
  · intro h
    rw [hb]
    exact ht.started h
  · rw [hb]; exact ht.rows
  · rw [hb]; exact ht.cols
  · rw [hb]; exact ht.nature

end Benker
