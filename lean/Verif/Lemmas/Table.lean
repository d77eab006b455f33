import Verif.Spec.Table
import Verif.Props.GridMerge

/-! Facts about lists of views and tables. -/

namespace Benker
variable {γ : Type}
open PyM

/-! ### lists of views -/

theorem canOwn_iff (ax : Axis) (v : View γ) (c : Cell γ) : v.canOwn ax c = true ↔ StartsIn ax v.pos c := by
  cases ax <;> simp [View.canOwn, StartsIn, firstLine]

theorem canCatch_iff (ax : Axis) (v : View γ) (c : Cell γ) (hc : c.box.Valid) :
    v.canCatch ax c = true ↔ Crosses ax v.pos c := by
  unfold Box.Valid at hc
  cases ax <;> simp only [View.canCatch, Crosses, firstLine, lastLine, Cell.hasCoord, hasCoord_iff, InBox,
    Cell.min, Cell.max] <;> omega

theorem first_eq (ax : Axis) (c : Cell γ) : ax.first c.box = firstLine ax c := by cases ax <;> rfl
theorem last_eq (ax : Axis) (c : Cell γ) : ax.last c.box = lastLine ax c := by cases ax <;> rfl

theorem lines_valid (ax : Axis) (c : Cell γ) (hc : c.box.Valid) : 1 ≤ firstLine ax c ∧ firstLine ax c ≤ lastLine ax c := by
  unfold Box.Valid at hc
  cases ax <;> simp only [firstLine, lastLine, Cell.min, Cell.max] <;> omega

def PosOK (vs : List (View γ)) : Prop := ∀ i (h : i < vs.length), vs[i].pos = (i : Int) + 1

theorem length_pyRange (a b : Int) : (pyRange a b).length = (b - a).toNat := by simp [pyRange]

theorem grow_length (n : Int) (vs : List (View γ)) : ((Views.grow n vs).length : Int) = max (vs.length : Int) n := by
  simp only [Views.grow, List.length_append, List.length_map, length_pyRange]; omega

theorem grow_noop (n : Int) (vs : List (View γ)) (h : n ≤ vs.length) : Views.grow n vs = vs := by
  have : pyRange (vs.length : Int) n = [] := by
    apply List.eq_nil_of_length_eq_zero; rw [length_pyRange]; omega
  simp [Views.grow, this]

theorem grow_getElem (n : Int) (vs : List (View γ)) (i : Nat) (h : i < (Views.grow n vs).length) :
    (Views.grow n vs)[i] = if h' : i < vs.length then vs[i] else View.new ((i : Int) + 1) := by
  by_cases h' : i < vs.length
  · simp [Views.grow, h', List.getElem_append_left]
  · simp only [Views.grow, h', dite_false]
    rw [List.getElem_append_right (by omega)]
    simp only [List.getElem_map, pyRange, List.getElem_range]
    congr 1
    omega

theorem grow_pos (n : Int) (vs : List (View γ)) (h : PosOK vs) : PosOK (Views.grow n vs) := by
  intro i hi
  rw [grow_getElem]
  split
  · rename_i h'; exact h i h'
  · rfl

theorem updateAt_pos (i : Nat) (f : View γ → View γ) (vs : List (View γ)) (h : i < vs.length) :
    Views.updateAt (i : Int) f vs = (.ok (), vs.modify i f) := by
  unfold Views.updateAt
  have h1 : (0 : Int) ≤ i := by omega
  simp [h1, h]

/-- updating the views of a set of positions -/
theorem forEach_updateAt (f : View γ → View γ) : ∀ (L : List Int) (vs : List (View γ)), L.Nodup →
    (∀ p ∈ L, 1 ≤ p ∧ p ≤ vs.length) →
    forEach (fun pos => Views.updateAt (pos - 1) f) L vs =
      (.ok (), vs.mapIdx (fun i v => if ((i : Int) + 1) ∈ L then f v else v)) := by
  intro L
  induction L with
  | nil =>
    intro vs _ _
    have : vs.mapIdx (fun i v => if ((i : Int) + 1) ∈ ([] : List Int) then f v else v) = vs := by
      apply List.ext_getElem <;> simp
    rw [this]; rfl
  | cons p L ih =>
    intro vs hnd hL
    obtain ⟨hp, hnd'⟩ := List.nodup_cons.mp hnd
    obtain ⟨h1, h2⟩ := hL p (by simp)
    have e : p - 1 = (((p - 1).toNat : Nat) : Int) := by omega
    show PyM.bind (Views.updateAt (p - 1) f) _ vs = _
    unfold PyM.bind
    rw [e, updateAt_pos _ f vs (by omega)]
    simp only
    rw [ih _ hnd' (by intro q hq; simp only [List.length_modify]; exact hL q (by simp [hq]))]
    congr 1
    apply List.ext_getElem
    · simp
    · intro i hi1 hi2
      simp only [List.getElem_mapIdx, List.getElem_modify, List.mem_cons]
      by_cases hi : (p - 1).toNat = i
      · have hi' : (i : Int) + 1 = p := by omega
        simp [hi, hi', hp]
      · have hi' : ¬ (i : Int) + 1 = p := by omega
        simp only [hi, hi', false_or, if_false]

theorem adopt_outside (ax : Axis) (c : Cell γ) (hc : c.box.Valid) (v : View γ) (h : ¬ Crosses ax v.pos c) :
    View.adopt ax c v = v := by
  have h1 : v.canCatch ax c = false := by rw [Bool.eq_false_iff]; intro hh; exact h ((canCatch_iff ax v c hc).mp hh)
  have h2 : v.canOwn ax c = false := by
    rw [Bool.eq_false_iff]; intro hh
    have := (canOwn_iff ax v c).mp hh
    apply h
    unfold StartsIn at this
    have := lines_valid ax c hc
    unfold Crosses; omega
  simp [View.adopt, h1, h2]

/-- `views.adopt_cell(cell)`: the list is extended if needed, then every view is offered the cell -/
theorem adopt_run (ax : Axis) (c : Cell γ) (hc : c.box.Valid) (vs : List (View γ)) (hp : PosOK vs) :
    Views.adopt ax c vs = (.ok (), (Views.grow (ax.last c.box) vs).map (View.adopt ax c)) := by
  unfold Views.adopt
  simp only [bind_run, modify_run, Views.fit, Bool.false_eq_true, if_false]
  have hl := lines_valid ax c hc
  have hlen := grow_length (ax.last c.box) vs
  rw [forEach_updateAt _ _ _ (pyRange_nodup _ _) (by
    intro p hpm
    rw [mem_pyRange, first_eq, last_eq] at hpm
    rw [last_eq] at hlen ⊢
    omega)]
  congr 1
  apply List.ext_getElem
  · simp
  · intro i hi1 hi2
    simp only [List.getElem_mapIdx, List.getElem_map]
    have hpos := grow_pos (ax.last c.box) vs hp i (by simpa using hi2)
    split
    · rfl
    · rename_i hn
      symm
      apply adopt_outside ax c hc
      rw [mem_pyRange, first_eq, last_eq] at hn
      rw [hpos]
      unfold Crosses
      omega

/-- the view after being offered a list of cells -/
def adoptAll (ax : Axis) (L : List (Cell γ)) (v : View γ) : View γ :=
  { v with owned := v.owned ++ L.filter (v.canOwn ax), caught := v.caught ++ L.filter (v.canCatch ax) }

theorem adoptAll_cons (ax : Axis) (c : Cell γ) (L : List (Cell γ)) (v : View γ) :
    adoptAll ax L (View.adopt ax c v) = adoptAll ax (c :: L) v := by
  have e1 : (View.adopt ax c v).canOwn ax = v.canOwn ax := by funext d; cases ax <;> rfl
  have e2 : (View.adopt ax c v).canCatch ax = v.canCatch ax := by funext d; cases ax <;> rfl
  simp only [adoptAll, e1, e2, List.filter_cons]
  simp only [View.adopt, View.mk.injEq, true_and]
  constructor <;> split <;> simp

theorem forEach_adopt (ax : Axis) : ∀ (L : List (Cell γ)) (vs : List (View γ)), PosOK vs →
    (∀ c ∈ L, c.box.Valid ∧ lastLine ax c ≤ vs.length) →
    forEach (fun c => Views.adopt ax c) L vs = (.ok (), vs.map (adoptAll ax L)) := by
  intro L
  induction L with
  | nil =>
    intro vs _ _
    have : (adoptAll ax ([] : List (Cell γ))) = id := by funext v; simp [adoptAll]
    simp [forEach, this]
  | cons c L ih =>
    intro vs hp hL
    obtain ⟨hc, hl⟩ := hL c (by simp)
    show PyM.bind (Views.adopt ax c) _ vs = _
    unfold PyM.bind
    rw [adopt_run ax c hc vs hp, grow_noop _ _ (by rw [last_eq]; exact hl)]
    simp only
    rw [ih _ (by intro i hi; simp only [List.getElem_map]; simp only [View.adopt]; exact hp i (by simpa using hi))
      (by intro d hd; simpa using hL d (by simp [hd]))]
    rw [List.map_map]
    congr 2
    funext v
    exact adoptAll_cons ax c L v

theorem truncate_pos {n : Int} (vs : List (View γ)) (h : PosOK vs) : PosOK (Views.truncate n vs) := by
  intro i hi
  unfold Views.truncate at hi ⊢
  split at hi <;> (rename_i hn; simp only [hn, if_true, if_false, List.getElem_take]; exact h i (by simp at hi; omega))

theorem fit_true_length (n : Int) (hn : 0 ≤ n) (vs : List (View γ)) : ((Views.fit n true vs).length : Int) = n := by
  simp only [Views.fit, if_true, grow_length]
  simp only [Views.truncate, hn, if_true, List.length_take]
  omega

/-- old views which remain, followed by new ones -/
theorem fit_true_getElem (n : Int) (hn : 0 ≤ n) (vs : List (View γ)) (i : Nat) (h : i < (Views.fit n true vs).length) :
    (Views.fit n true vs)[i] = if h' : i < vs.length then vs[i] else View.new ((i : Int) + 1) := by
  have hl := fit_true_length n hn vs
  simp only [Views.fit, if_true] at h ⊢
  rw [grow_getElem]
  have e : Views.truncate n vs = vs.take n.toNat := by simp [Views.truncate, hn]
  have hin : i < n.toNat := by
    simp only [Views.fit, if_true] at hl; omega
  by_cases h' : i < vs.length
  · have h2 : i < (Views.truncate n vs).length := by rw [e, List.length_take]; omega
    simp only [h2, h', dite_true]
    simp only [e, List.getElem_take]
  · have h2 : ¬ i < (Views.truncate n vs).length := by rw [e, List.length_take]; omega
    simp only [h2, h', dite_false]

theorem fit_true_posOK (n : Int) (vs : List (View γ)) (h : PosOK vs) : PosOK (Views.fit n true vs) := by
  simp only [Views.fit, if_true]; exact grow_pos _ _ (truncate_pos vs h)

/-- the last line of a table (0 if empty) -/
def lastLineOf (ax : Axis) (g : Grid γ) : Int :=
  match g.boundingBox with
  | .ok (some b) => ax.last b
  | _ => 0

theorem boundingBox_inv (g : Grid γ) (hinv : g.Inv) :
    (g.cells = [] ∧ g.boundingBox = .ok none) ∨
    (∃ b, g.cells ≠ [] ∧ g.boundingBox = .ok (some b) ∧ b.Valid ∧
      (∀ c ∈ g.cells, Within c.box b) ∧
      (∀ w, (∀ c ∈ g.cells, Within c.box w) → Within b w)) := by
  unfold Grid.boundingBox
  have hval := hinv.valid
  cases hc : g.cells with
  | nil => left; simp
  | cons a rest =>
    right
    rw [hc] at hval
    obtain ⟨u, hu, hv, hin, hleast⟩ := C10_union_least a.box (rest.map (·.box)) (by
      intro b hb
      rw [← List.map_cons (f := fun c : Cell γ => c.box)] at hb
      obtain ⟨c, hc', rfl⟩ := List.mem_map.mp hb
      exact hval c hc')
    refine ⟨u, by simp, ?_, hv, ?_, ?_⟩
    · simp only [List.map_cons, hu, Except.map]
    · intro c hc'
      exact hin _ (by rw [← List.map_cons (f := fun c : Cell γ => c.box)]; exact List.mem_map_of_mem hc')
    · intro w hw
      refine hleast w ?_
      intro b hb
      rw [← List.map_cons (f := fun c : Cell γ => c.box)] at hb
      obtain ⟨c, hc', rfl⟩ := List.mem_map.mp hb
      exact hw c hc'

theorem lastLineOf_spec (ax : Axis) (g : Grid γ) (hinv : g.Inv) :
    (∀ c ∈ g.cells, lastLine ax c ≤ lastLineOf ax g) ∧ 0 ≤ lastLineOf ax g ∧
    (g.cells ≠ [] → ∃ c ∈ g.cells, lastLine ax c = lastLineOf ax g) ∧ (g.cells = [] → lastLineOf ax g = 0) := by
  unfold lastLineOf
  rcases boundingBox_inv g hinv with ⟨h1, h2⟩ | ⟨b, h1, h2, hv, hin, hleast⟩
  · simp [h1, h2]
  · rw [h2]
    refine ⟨?_, ?_, ?_, fun h => absurd h h1⟩
    · intro c hc
      have hvc := hinv.valid c hc
      have := (within_iff hvc).mp (hin c hc)
      cases ax <;> simp only [lastLine, Axis.last, Cell.max, InBox] at * <;> omega
    · unfold Box.Valid at hv; cases ax <;> simp only [Axis.last] <;> omega
    · intro _
      apply Classical.byContradiction
      intro hno
      have hlt : ∀ c ∈ g.cells, lastLine ax c < ax.last b := by
        intro c hc
        have hvc := hinv.valid c hc
        have h3 := (within_iff hvc).mp (hin c hc)
        have h4 : lastLine ax c ≠ ax.last b := fun he => hno ⟨c, hc, he⟩
        cases ax <;> simp only [lastLine, Axis.last, Cell.max, InBox] at * <;> omega
      obtain ⟨c0, hc0⟩ := List.exists_mem_of_ne_nil _ h1
      cases ax with
      | row =>
        have := hleast ⟨b.min, ⟨b.max.x, b.max.y - 1⟩⟩ (by
          intro c hc p hp
          have h3 := hin c hc p hp
          have h4 := hlt c hc
          simp only [lastLine, Axis.last, Cell.max, InBox] at *; omega)
        have := this b.max (by unfold Box.Valid at hv; simp only [InBox]; omega)
        simp only [InBox] at this; omega
      | col =>
        have := hleast ⟨b.min, ⟨b.max.x - 1, b.max.y⟩⟩ (by
          intro c hc p hp
          have h3 := hin c hc p hp
          have h4 := hlt c hc
          simp only [lastLine, Axis.last, Cell.max, InBox] at *; omega)
        have := this b.max (by unfold Box.Valid at hv; simp only [InBox]; omega)
        simp only [InBox] at this; omega

/-- the view refreshed with the cells of the table -/
def refreshed (ax : Axis) (cells : List (Cell γ)) (v : View γ) : View γ :=
  { v with owned := cells.filter (fun c => StartsIn ax v.pos c), caught := cells.filter (fun c => Crosses ax v.pos c) }

/-- `views.refresh_all()`: as many views as lines; old views keep their styles and nature -/
theorem refreshAll_run (ax : Axis) (g : Grid γ) (hinv : g.Inv) (vs : List (View γ)) (hp : PosOK vs) :
    Views.refreshAll ax g vs = (.ok (), (Views.fit (lastLineOf ax g) true vs).map (refreshed ax g.cells)) := by
  have hs := lastLineOf_spec ax g hinv
  unfold Views.refreshAll
  simp only [bind_run, lift_run]
  rcases boundingBox_inv g hinv with ⟨h1, h2⟩ | ⟨b, h1, h2, hv, hin, hleast⟩
  · rw [h2]
    simp only [set_run]
    have h0 := hs.2.2.2 h1
    have : Views.fit (lastLineOf ax g) true vs = [] := by
      apply List.eq_nil_of_length_eq_zero
      have := fit_true_length (lastLineOf ax g) hs.2.1 vs
      omega
    simp [this]
  · have hb : lastLineOf ax g = ax.last b := by simp [lastLineOf, h2]
    rw [h2]
    simp only [bind_run, modify_run]
    rw [← hb]
    have hposfit := fit_true_posOK (lastLineOf ax g) vs hp
    have hlen := fit_true_length (lastLineOf ax g) hs.2.1 vs
    rw [forEach_adopt ax g.cells _ (by
        intro i hi; simp only [List.getElem_map]; exact hposfit i (by simpa using hi))
      (by intro c hc; refine ⟨hinv.valid c hc, ?_⟩; rw [List.length_map]; have := hs.1 c hc; omega)]
    rw [List.map_map]
    congr 1
    apply List.map_congr_left
    intro v hv
    simp only [Function.comp, adoptAll, refreshed, List.nil_append, View.mk.injEq, true_and]
    constructor
    · apply List.filter_congr
      intro c hc
      rw [Bool.eq_iff_iff, canOwn_iff]; simp
    · apply List.filter_congr
      intro c hc
      rw [Bool.eq_iff_iff, canCatch_iff ax _ c (hinv.valid c hc)]; simp

theorem refreshed_describes (ax : Axis) (g : Grid γ) (hinv : g.Inv) (vs : List (View γ)) (hp : PosOK vs) :
    Describes ax g.cells ((Views.fit (lastLineOf ax g) true vs).map (refreshed ax g.cells)) := by
  have hs := lastLineOf_spec ax g hinv
  refine ⟨?_, ?_, ?_, ?_⟩
  · intro i hi
    simp only [List.getElem_map, refreshed]
    exact fit_true_posOK _ vs hp i (by simpa using hi)
  · intro v hv c
    obtain ⟨w, hw, rfl⟩ := List.mem_map.mp hv
    simp [refreshed]
  · intro v hv c
    obtain ⟨w, hw, rfl⟩ := List.mem_map.mp hv
    simp [refreshed]
  · intro c hc
    rw [List.length_map, fit_true_length _ hs.2.1]
    exact hs.1 c hc

theorem inv_nodup {g : Grid γ} (hinv : g.Inv) : g.cells.Nodup := by
  refine hinv.sorted.imp ?_
  intro a b h e; subst e; unfold CornerBefore at h; omega

theorem refreshed_noRepeat (ax : Axis) (g : Grid γ) (hinv : g.Inv) (vs : List (View γ)) :
    NoRepeat (vs.map (refreshed ax g.cells)) := by
  intro v hv
  obtain ⟨w, hw, rfl⟩ := List.mem_map.mp hv
  exact ⟨(inv_nodup hinv).filter _, (inv_nodup hinv).filter _⟩

theorem describes_posOK {ax : Axis} {cells : List (Cell γ)} {vs : List (View γ)} (h : Describes ax cells vs) : PosOK vs := h.pos

/-- new empty views beyond the cells are consistent -/
theorem grow_describes {ax : Axis} {cells : List (Cell γ)} {vs : List (View γ)} (hval : ∀ c ∈ cells, c.box.Valid)
    (h : Describes ax cells vs) (n : Int) :
    Describes ax cells (Views.grow n vs) := by
  have key : ∀ v ∈ Views.grow n vs, v ∈ vs ∨ (v.owned = [] ∧ v.caught = [] ∧ (vs.length : Int) < v.pos) := by
    intro v hv
    simp only [Views.grow, List.mem_append, List.mem_map] at hv
    rcases hv with hv | ⟨i, hi, rfl⟩
    · exact .inl hv
    · right
      rw [mem_pyRange] at hi
      refine ⟨rfl, rfl, ?_⟩
      show (vs.length : Int) < i + 1
      omega
  refine ⟨grow_pos n vs h.pos, ?_, ?_, ?_⟩
  · intro v hv c
    rcases key v hv with hv | ⟨h1, h2, h3⟩
    · exact h.owned v hv c
    · rw [h1]
      constructor
      · simp
      · rintro ⟨hc, hs⟩
        have := h.enough c hc
        have := lines_valid ax c (hval c hc)
        unfold StartsIn at hs; omega
  · intro v hv c
    rcases key v hv with hv | ⟨h1, h2, h3⟩
    · exact h.caught v hv c
    · rw [h2]
      constructor
      · simp
      · rintro ⟨hc, hs⟩
        have := h.enough c hc
        unfold Crosses at hs; omega
  · intro c hc
    have := h.enough c hc
    rw [grow_length]; omega

theorem adopted_describes {ax : Axis} {cells cells' : List (Cell γ)} {vs : List (View γ)} (hv : ∀ c ∈ cells, c.box.Valid)
    (h : Describes ax cells vs) (c : Cell γ) (hc : c.box.Valid) (hm : ∀ d, d ∈ cells' ↔ d = c ∨ d ∈ cells) :
    Describes ax cells' ((Views.grow (ax.last c.box) vs).map (View.adopt ax c)) := by
  have hg := grow_describes hv h (ax.last c.box)
  have hl := grow_length (ax.last c.box) vs
  refine ⟨?_, ?_, ?_, ?_⟩
  · intro i hi
    simp only [List.getElem_map, View.adopt]
    exact hg.pos i (by simpa using hi)
  · intro v hvm d
    obtain ⟨w, hw, rfl⟩ := List.mem_map.mp hvm
    rw [hm]
    have e : (View.adopt ax c w).pos = w.pos := rfl
    rw [e]
    have h0 := hg.owned w hw
    by_cases ho : w.canOwn ax c = true
    · have := (canOwn_iff ax w c).mp ho
      simp only [View.adopt, ho, if_true, List.mem_append, List.mem_singleton, h0]
      constructor
      · rintro (h | rfl)
        · exact ⟨.inr h.1, h.2⟩
        · exact ⟨.inl rfl, this⟩
      · rintro ⟨rfl | h, h2⟩
        · exact .inr rfl
        · exact .inl ⟨h, h2⟩
    · have hn := fun hh => ho ((canOwn_iff ax w c).mpr hh)
      simp only [View.adopt, ho, Bool.false_eq_true, if_false, h0]
      constructor
      · rintro h; exact ⟨.inr h.1, h.2⟩
      · rintro ⟨rfl | h, h2⟩
        · exact absurd h2 hn
        · exact ⟨h, h2⟩
  · intro v hvm d
    obtain ⟨w, hw, rfl⟩ := List.mem_map.mp hvm
    rw [hm]
    have e : (View.adopt ax c w).pos = w.pos := rfl
    rw [e]
    have h0 := hg.caught w hw
    by_cases ho : w.canCatch ax c = true
    · have := (canCatch_iff ax w c hc).mp ho
      simp only [View.adopt, ho, if_true, List.mem_append, List.mem_singleton, h0]
      constructor
      · rintro (h | rfl)
        · exact ⟨.inr h.1, h.2⟩
        · exact ⟨.inl rfl, this⟩
      · rintro ⟨rfl | h, h2⟩
        · exact .inr rfl
        · exact .inl ⟨h, h2⟩
    · have hn := fun hh => ho ((canCatch_iff ax w c hc).mpr hh)
      simp only [View.adopt, ho, Bool.false_eq_true, if_false, h0]
      constructor
      · rintro h; exact ⟨.inr h.1, h.2⟩
      · rintro ⟨rfl | h, h2⟩
        · exact absurd h2 hn
        · exact ⟨h, h2⟩
  · intro d hd
    rw [List.length_map, hl]
    rw [hm] at hd
    rcases hd with rfl | hd
    · rw [last_eq]; omega
    · have := h.enough d hd; omega

theorem adopted_noRepeat {ax : Axis} {cells : List (Cell γ)} {vs : List (View γ)} (hv : ∀ c ∈ cells, c.box.Valid)
    (h : Describes ax cells vs) (hn : NoRepeat vs) (c : Cell γ) (hc : c ∉ cells) :
    NoRepeat ((Views.grow (ax.last c.box) vs).map (View.adopt ax c)) := by
  have hg := grow_describes hv h (ax.last c.box)
  intro v hvm
  obtain ⟨w, hw, rfl⟩ := List.mem_map.mp hvm
  have hw0 : w.owned.Nodup ∧ w.caught.Nodup := by
    simp only [Views.grow, List.mem_append, List.mem_map] at hw
    rcases hw with hw | ⟨i, hi, rfl⟩
    · exact hn w hw
    · simp [View.new]
  have app : ∀ l : List (Cell γ), l.Nodup → c ∉ l → (l ++ [c]).Nodup := by
    intro l hl hcl
    rw [List.nodup_append]
    refine ⟨hl, by simp, ?_⟩
    intro a ha b hb e
    simp only [List.mem_singleton] at hb
    subst hb; subst e; exact hcl ha
  constructor
  · simp only [View.adopt]
    split
    · exact app _ hw0.1 (fun hm => hc ((hg.owned w hw c).mp hm).1)
    · exact hw0.1
  · simp only [View.adopt]
    split
    · exact app _ hw0.2 (fun hm => hc ((hg.caught w hw c).mp hm).1)
    · exact hw0.2

theorem grow_noRepeat {vs : List (View γ)} (h : NoRepeat vs) (n : Int) : NoRepeat (Views.grow n vs) := by
  intro w hw
  simp only [Views.grow, List.mem_append, List.mem_map] at hw
  rcases hw with hw | ⟨i, hi, rfl⟩
  · exact h w hw
  · simp [View.new]

end Benker
