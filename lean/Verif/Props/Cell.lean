import Verif.Lemmas.Grid
import Verif.Props.Geometry

/-! Properties C14, C15: cells. -/

namespace Benker
variable {γ : Type}

/-! ### C14 -/

/-- **C14.** Cells with different boxes are ordered like their boxes, by all four operators
(`same = false`: two cells with different boxes are different objects). -/
theorem C14_cell_order (a b : Cell γ) (hne : a.box ≠ b.box) :
    (a.lt b = true ↔ ReadsBefore a.box b.box) ∧
    (a.lt b = true ∧ b.lt a = false ∨ a.lt b = false ∧ b.lt a = true) ∧
    (Cell.gt false a b = b.lt a) ∧ (Cell.le false a b = a.lt b) ∧ (a.ge b = b.lt a) := by
  have htot : a.lt b = !b.lt a := by
    unfold Cell.lt
    have : ¬ (a.box.min.x = b.box.min.x ∧ a.box.min.y = b.box.min.y ∧ a.box.max.x = b.box.max.x ∧
        a.box.max.y = b.box.max.y) := fun h => hne (box_ext h.1 h.2.1 h.2.2.1 h.2.2.2)
    rw [Bool.eq_iff_iff, Bool.not_eq_true', Bool.eq_false_iff, Ne, lt_iff, lt_iff]
    unfold ReadsBefore; omega
  refine ⟨lt_iff _ _, ?_, ?_, ?_, ?_⟩
  · rw [htot]; cases b.lt a <;> simp
  · simp [Cell.gt, htot]
  · simp [Cell.le]
  · simp [Cell.ge, htot]

/-- **C14.** A cell and a box of different areas compare like the two boxes, on either side. -/
theorem C14_cell_box_order (a : Cell γ) (b : Box) (hne : a.box ≠ b) :
    a.ltBox b = a.box.lt b ∧ Cell.boxLt b a = b.lt a.box ∧ a.gtBox b = b.lt a.box := by
  have htot : a.box.lt b = !b.lt a.box := by
    have : ¬ (a.box.min.x = b.min.x ∧ a.box.min.y = b.min.y ∧ a.box.max.x = b.max.x ∧
        a.box.max.y = b.max.y) := fun h => hne (box_ext h.1 h.2.1 h.2.2.1 h.2.2.2)
    rw [Bool.eq_iff_iff, Bool.not_eq_true', Bool.eq_false_iff, Ne, lt_iff, lt_iff]
    unfold ReadsBefore; omega
  exact ⟨rfl, by simp [Cell.boxLt, Cell.ltBox, htot], by simp [Cell.gtBox, Cell.ltBox, htot]⟩

/-- **C14 (limit).** Without the hypothesis on boxes the claim fails: two distinct cells with the same box are each
`>` the other while none is `<`, and the box of a cell is `<` the cell. -/
theorem C14_equal_boxes (a b : Cell γ) (h : a.box = b.box) :
    a.lt b = false ∧ b.lt a = false ∧ Cell.gt false a b = true ∧ Cell.gt false b a = true ∧
    Cell.boxLt a.box a = true := by
  have h0 : ∀ x : Box, x.lt x = false := fun x => by
    rw [Bool.eq_false_iff, Ne, lt_iff]; unfold ReadsBefore; omega
  simp [Cell.gt, Cell.lt, Cell.boxLt, Cell.ltBox, h, h0]

/-- a cell compared with itself: it is neither before nor after itself -/
theorem C14_same_cell (a : Cell γ) : a.lt a = false ∧ Cell.gt true a a = false ∧ Cell.le true a a = true ∧ a.ge a = true := by
  have h0 : a.box.lt a.box = false := by
    rw [Bool.eq_false_iff, Ne, lt_iff]; unfold ReadsBefore; omega
  simp [Cell.gt, Cell.le, Cell.ge, Cell.lt, h0]

example : (Cell.new (some "a") none none 2 1).toOption.isSome ∧
    (⟨some "a", [], none, ⟨⟨2, 1⟩, ⟨2, 1⟩⟩⟩ : Cell String).box ≠ (⟨some "b", [], none, ⟨⟨1, 2⟩, ⟨1, 2⟩⟩⟩ : Cell String).box := by
  decide

/-- **C08.** What is in a cell is what is in the area which it covers. -/
theorem C08_cell (c : Cell γ) :
    (∀ p, c.contains (.coord p) = .ok (decide (InBox p c.box))) ∧
    (∀ x y, c.contains (.tuple [.int x, .int y]) = .ok (decide (InBox ⟨x, y⟩ c.box))) ∧
    (∀ i : Box, i.Valid → ∃ r, c.contains (.box i) = .ok r ∧ (r = true ↔ Within i c.box)) ∧
    (∀ v, (∀ p, v ≠ .coord p) → (∀ x y, v ≠ .tuple [.int x, .int y]) → (∀ i, v ≠ .box i) → c.contains v = .error .typeError) :=
  C08_contains c.box

example : (⟨some "a", [], none, ⟨⟨2, 1⟩, ⟨3, 1⟩⟩⟩ : Cell String).contains (.coord ⟨3, 1⟩) = .ok true ∧
    (⟨some "a", [], none, ⟨⟨2, 1⟩, ⟨3, 1⟩⟩⟩ : Cell String).contains (.coord ⟨3, 2⟩) = .ok false := by decide

/-! ### C15 -/

/-- **C15.** Transforming a cell succeeds exactly when transforming its box does, with the same exception
otherwise, and changes nothing but the box. -/
theorem C15_transform (c : Cell γ) (coord size : PyVal) :
    (∀ e, c.transformV coord size = .error e ↔ c.box.transformV coord size = .error e) ∧
    (∀ r, c.transformV coord size = .ok r ↔
      ∃ b, c.box.transformV coord size = .ok b ∧
        r.box = b ∧ r.content = c.content ∧ r.styles = c.styles ∧ r.nature = c.nature) := by
  unfold Cell.transformV
  cases h : c.box.transformV coord size with
  | error e => simp
  | ok b =>
    have hv : b.Valid := by
      unfold Box.transformV at h
      simp only [bind, Except.bind] at h
      repeat' split at h
      all_goals try cases h
      exact (make_ok h).2
    simp only [cell_new_of_box _ _ _ b hv]
    constructor
    · simp
    · intro r
      constructor
      · intro hr; cases hr; exact ⟨b, rfl, rfl, rfl, rfl, rfl⟩
      · rintro ⟨b', hb, h1, h2, h3, h4⟩
        cases hb; cases r; simp_all [copyStyles]

/-- **C15.** `move_to` and `resize` are the two partial transforms: the moved cell starts at the given coordinate and has
the same size; the resized cell has the given size and starts at the same coordinate. -/
theorem C15_move_resize (c : Cell γ) (hv : c.box.Valid) (p : Coord) (s : Size) :
    (∀ r, c.moveTo (.coord p) = .ok r → r.min = p ∧ r.size = c.size ∧
      r.content = c.content ∧ r.styles = c.styles ∧ r.nature = c.nature) ∧
    (∀ r, c.resize (.size s) = .ok r → r.min = c.min ∧ r.size = s ∧
      r.content = c.content ∧ r.styles = c.styles ∧ r.nature = c.nature) ∧
    ((∃ r, c.moveTo (.coord p) = .ok r) ↔ 1 ≤ p.x ∧ 1 ≤ p.y) ∧
    ((∃ r, c.resize (.size s) = .ok r) ↔ 1 ≤ s.width ∧ 1 ≤ s.height) := by
  have hm : c.box.transformV (.coord p) .none = Box.make p.x p.y (p.x + c.box.width - 1) (p.y + c.box.height - 1) := rfl
  have hr : c.box.transformV .none (.size s) =
      Box.make c.box.min.x c.box.min.y (c.box.min.x + s.width - 1) (c.box.min.y + s.height - 1) := rfl
  unfold Box.Valid at hv
  refine ⟨?_, ?_, ?_, ?_⟩
  · intro r h
    obtain ⟨b, hb, h1, h2, h3, h4⟩ := ((C15_transform c _ _).2 r).mp h
    rw [hm] at hb
    obtain ⟨rfl, -⟩ := make_ok hb
    refine ⟨by simp [Cell.min, h1], ?_, h2, h3, h4⟩
    simp only [Cell.size, h1, Box.size, Box.width, Box.height, Size.mk.injEq]; omega
  · intro r h
    obtain ⟨b, hb, h1, h2, h3, h4⟩ := ((C15_transform c _ _).2 r).mp h
    rw [hr] at hb
    obtain ⟨rfl, -⟩ := make_ok hb
    refine ⟨by simp [Cell.min, h1], ?_, h2, h3, h4⟩
    cases s
    simp only [Cell.size, h1, Box.size, Box.width, Box.height, Size.mk.injEq]; omega
  · constructor
    · rintro ⟨r, h⟩
      obtain ⟨b, hb, -⟩ := ((C15_transform c _ _).2 r).mp h
      rw [hm] at hb
      obtain ⟨rfl, hv'⟩ := make_ok hb
      simp only [Box.Valid] at hv'; omega
    · intro h
      refine ⟨{ c with box := ⟨p, ⟨p.x + c.box.width - 1, p.y + c.box.height - 1⟩⟩ },
        ((C15_transform c _ _).2 _).mpr ⟨_, ?_, rfl, rfl, rfl, rfl⟩⟩
      rw [hm]; exact make_eq_ok (by unfold Box.width Box.height; omega)
  · constructor
    · rintro ⟨r, h⟩
      obtain ⟨b, hb, -⟩ := ((C15_transform c _ _).2 r).mp h
      rw [hr] at hb
      obtain ⟨rfl, hv'⟩ := make_ok hb
      simp only [Box.Valid] at hv'; omega
    · intro h
      refine ⟨{ c with box := ⟨c.box.min, ⟨c.box.min.x + s.width - 1, c.box.min.y + s.height - 1⟩⟩ },
        ((C15_transform c _ _).2 _).mpr ⟨_, ?_, rfl, rfl, rfl, rfl⟩⟩
      rw [hr]; exact make_eq_ok (by omega)

/-- **C15.** The constructor of `Cell` raises `ValueError` exactly if `x`, `y`, `width` or `height` is not positive;
otherwise the cell has the given content, styles and nature and covers exactly the given area. -/
theorem C15_cell_new (content : Option γ) (styles : Option Styles) (nature : Option String) (x y w h : Int) :
    ((1 ≤ x ∧ 1 ≤ y ∧ 1 ≤ w ∧ 1 ≤ h) →
      ∃ c, Cell.new content styles nature x y w h = .ok c ∧ c.content = content ∧
        c.styles = styles.getD [] ∧ c.nature = nature ∧ c.box.Valid ∧ c.width = w ∧ c.height = h ∧
        ∀ p, InBox p c.box ↔ (x ≤ p.x ∧ p.x < x + w ∧ y ≤ p.y ∧ p.y < y + h)) ∧
    (¬ (1 ≤ x ∧ 1 ≤ y ∧ 1 ≤ w ∧ 1 ≤ h) → Cell.new content styles nature x y w h = .error .valueError) := by
  unfold Cell.new
  constructor
  · intro hpos
    rw [make_eq_ok (by omega)]
    refine ⟨_, rfl, rfl, by cases styles <;> rfl, rfl, ?_, ?_, ?_, ?_⟩
    · simp only [Box.Valid]; omega
    · simp only [Cell.width, Box.width]; omega
    · simp only [Cell.height, Box.height]; omega
    · intro p; simp only [InBox]; omega
  · intro hpos; rw [make_eq_error (by omega)]

example : (Cell.new (some 7) (some [("k", .str "v")]) (some "body") 2 3 4 1).toOption.isSome = true := by decide

end Benker
