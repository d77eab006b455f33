import Verif.Spec.Geometry

namespace Benker
open Box

@[simp] theorem hasCoord_iff (b : Box) (c : Coord) : b.hasCoord c = true ↔ InBox c b := by
  simp [hasCoord, InBox]; omega

theorem make_ok {a b c d : Int} {r : Box} (h : Box.make a b c d = .ok r) :
    r = ⟨⟨a, b⟩, ⟨c, d⟩⟩ ∧ r.Valid := by
  unfold Box.make at h
  split at h
  · cases h; refine ⟨rfl, ?_⟩; simp only [Box.Valid]; omega
  · cases h

theorem make_eq_ok {a b c d : Int} (h : 1 ≤ a ∧ a ≤ c ∧ 1 ≤ b ∧ b ≤ d) :
    Box.make a b c d = .ok ⟨⟨a, b⟩, ⟨c, d⟩⟩ := by
  unfold Box.make; rw [if_pos (by omega)]

theorem make_eq_error {a b c d : Int} (h : ¬ (1 ≤ a ∧ a ≤ c ∧ 1 ≤ b ∧ b ≤ d)) :
    Box.make a b c d = .error .valueError := by
  unfold Box.make; rw [if_neg (by omega)]

theorem make_self (b : Box) (h : b.Valid) : Box.make b.min.x b.min.y b.max.x b.max.y = .ok b := by
  rw [make_eq_ok h]

theorem within_iff {a b : Box} (ha : a.Valid) : Within a b ↔ InBox a.min b ∧ InBox a.max b := by
  unfold Within InBox Box.Valid at *
  constructor
  · intro h; exact ⟨h a.min (by omega), h a.max (by omega)⟩
  · intro h p hp; omega

theorem hasBox_iff {a b : Box} (ha : a.Valid) : b.hasBox a = true ↔ Within a b := by
  rw [within_iff ha]; simp [hasBox]

theorem overlap_iff {a b : Box} (ha : a.Valid) (hb : b.Valid) :
    Overlap a b ↔ (a.min.x ≤ b.max.x ∧ b.min.x ≤ a.max.x ∧ a.min.y ≤ b.max.y ∧ b.min.y ≤ a.max.y) := by
  unfold Overlap InBox Box.Valid at *
  constructor
  · rintro ⟨p, hp⟩; omega
  · intro h
    exact ⟨⟨max a.min.x b.min.x, max a.min.y b.min.y⟩, by dsimp; omega⟩

theorem intersect_iff (a b : Box) : a.intersect b = true ↔
    InBox a.min b ∨ InBox a.max b ∨ InBox b.min a ∨ InBox b.max a := by
  simp [Box.intersect, or_assoc]

theorem intersect_comm (a b : Box) : a.intersect b = b.intersect a := by
  rw [Bool.eq_iff_iff, intersect_iff, intersect_iff]
  constructor <;> (rintro (h | h | h | h) <;> simp [h])

theorem minOf_le (x : Int) (xs : List Int) : ∀ y ∈ x :: xs, Box.minOf x xs ≤ y := by
  induction xs generalizing x with
  | nil => simp [minOf]
  | cons z xs ih =>
    intro y hy
    show minOf (if z < x then z else x) xs ≤ y
    simp only [List.mem_cons] at hy ih
    split
    · have h0 := ih z z (.inl rfl)
      rcases hy with rfl | rfl | hy
      · omega
      · exact h0
      · exact ih z y (.inr hy)
    · have h0 := ih x x (.inl rfl)
      rcases hy with rfl | rfl | hy
      · exact h0
      · omega
      · exact ih x y (.inr hy)

theorem minOf_mem (x : Int) (xs : List Int) : Box.minOf x xs ∈ x :: xs := by
  induction xs generalizing x with
  | nil => simp [minOf]
  | cons z xs ih =>
    show minOf (if z < x then z else x) xs ∈ _
    simp only [List.mem_cons] at ih ⊢
    split
    · rcases ih z with h | h <;> simp [h]
    · rcases ih x with h | h <;> simp [h]

theorem le_maxOf (x : Int) (xs : List Int) : ∀ y ∈ x :: xs, y ≤ Box.maxOf x xs := by
  induction xs generalizing x with
  | nil => simp [maxOf]
  | cons z xs ih =>
    intro y hy
    show y ≤ maxOf (if z > x then z else x) xs
    simp only [List.mem_cons] at hy ih
    split
    · have h0 := ih z z (.inl rfl)
      rcases hy with rfl | rfl | hy
      · omega
      · exact h0
      · exact ih z y (.inr hy)
    · have h0 := ih x x (.inl rfl)
      rcases hy with rfl | rfl | hy
      · exact h0
      · omega
      · exact ih x y (.inr hy)

theorem maxOf_mem (x : Int) (xs : List Int) : Box.maxOf x xs ∈ x :: xs := by
  induction xs generalizing x with
  | nil => simp [maxOf]
  | cons z xs ih =>
    show maxOf (if z > x then z else x) xs ∈ _
    simp only [List.mem_cons] at ih ⊢
    split
    · rcases ih z with h | h <;> simp [h]
    · rcases ih x with h | h <;> simp [h]

/-- the union succeeds, with these corners -/
theorem union_spec (b : Box) (bs : List Box) (hv : ∀ c ∈ b :: bs, c.Valid) :
    ∃ u, b.union bs = .ok u ∧ u.Valid ∧ (∀ c ∈ b :: bs, Within c u) ∧
      (∃ c ∈ b :: bs, c.min.x = u.min.x) ∧ (∃ c ∈ b :: bs, c.min.y = u.min.y) ∧
      (∃ c ∈ b :: bs, c.max.x = u.max.x) ∧ (∃ c ∈ b :: bs, c.max.y = u.max.y) := by
  have e1 := minOf_le b.min.x (bs.map (·.min.x))
  have e2 := minOf_le b.min.y (bs.map (·.min.y))
  have e3 := le_maxOf b.max.x (bs.map (·.max.x))
  have e4 := le_maxOf b.max.y (bs.map (·.max.y))
  have m1 := minOf_mem b.min.x (bs.map (·.min.x))
  have m2 := minOf_mem b.min.y (bs.map (·.min.y))
  have m3 := maxOf_mem b.max.x (bs.map (·.max.x))
  have m4 := maxOf_mem b.max.y (bs.map (·.max.y))
  unfold Box.union
  generalize Box.minOf b.min.x (bs.map (·.min.x)) = x1 at *
  generalize Box.minOf b.min.y (bs.map (·.min.y)) = y1 at *
  generalize Box.maxOf b.max.x (bs.map (·.max.x)) = x2 at *
  generalize Box.maxOf b.max.y (bs.map (·.max.y)) = y2 at *
  have f1 : ∀ c ∈ b :: bs, x1 ≤ c.min.x := fun c hc =>
    e1 _ (by rw [← List.map_cons (f := fun c : Box => c.min.x)]; exact List.mem_map_of_mem hc)
  have f2 : ∀ c ∈ b :: bs, y1 ≤ c.min.y := fun c hc =>
    e2 _ (by rw [← List.map_cons (f := fun c : Box => c.min.y)]; exact List.mem_map_of_mem hc)
  have f3 : ∀ c ∈ b :: bs, c.max.x ≤ x2 := fun c hc =>
    e3 _ (by rw [← List.map_cons (f := fun c : Box => c.max.x)]; exact List.mem_map_of_mem hc)
  have f4 : ∀ c ∈ b :: bs, c.max.y ≤ y2 := fun c hc =>
    e4 _ (by rw [← List.map_cons (f := fun c : Box => c.max.y)]; exact List.mem_map_of_mem hc)
  rw [← List.map_cons (f := fun c : Box => c.min.x)] at m1
  rw [← List.map_cons (f := fun c : Box => c.min.y)] at m2
  rw [← List.map_cons (f := fun c : Box => c.max.x)] at m3
  rw [← List.map_cons (f := fun c : Box => c.max.y)] at m4
  obtain ⟨c1, hc1, g1⟩ := List.mem_map.mp m1
  obtain ⟨c2, hc2, g2⟩ := List.mem_map.mp m2
  have hb : b ∈ b :: bs := by simp
  have v1 := hv c1 hc1
  have v2 := hv c2 hc2
  have vb := hv b hb
  have k1 := f1 b hb
  have k2 := f2 b hb
  have k3 := f3 b hb
  have k4 := f4 b hb
  have hval : 1 ≤ x1 ∧ x1 ≤ x2 ∧ 1 ≤ y1 ∧ y1 ≤ y2 := by
    simp only [Box.Valid] at v1 v2 vb; omega
  rw [make_eq_ok hval]
  have hw : ∀ c ∈ b :: bs, Within c (⟨⟨x1, y1⟩, ⟨x2, y2⟩⟩ : Box) := by
    intro c hc
    have vc := hv c hc
    rw [within_iff vc]
    have := f1 c hc; have := f2 c hc; have := f3 c hc; have := f4 c hc
    simp only [InBox, Box.Valid] at *
    omega
  have hall : (b :: bs).all (fun c => Box.hasBox ⟨⟨x1, y1⟩, ⟨x2, y2⟩⟩ c) = true := by
    rw [List.all_eq_true]
    intro c hc
    exact (hasBox_iff (hv c hc)).mpr (hw c hc)
  dsimp only
  rw [if_pos hall]
  exact ⟨_, rfl, hval, hw, ⟨c1, hc1, g1⟩, ⟨c2, hc2, g2⟩, List.mem_map.mp m3, List.mem_map.mp m4⟩

theorem box_ext {a b : Box} (h1 : a.min.x = b.min.x) (h2 : a.min.y = b.min.y)
    (h3 : a.max.x = b.max.x) (h4 : a.max.y = b.max.y) : a = b := by
  obtain ⟨⟨_, _⟩, ⟨_, _⟩⟩ := a
  obtain ⟨⟨_, _⟩, ⟨_, _⟩⟩ := b
  simp_all

theorem within_antisymm {a b : Box} (ha : a.Valid) (hb : b.Valid) (h1 : Within a b) (h2 : Within b a) : a = b := by
  rw [within_iff ha] at h1
  rw [within_iff hb] at h2
  simp only [InBox] at h1 h2
  apply box_ext <;> omega

theorem lt_iff (a b : Box) : a.lt b = true ↔ ReadsBefore a b := by
  unfold Box.lt ReadsBefore
  repeat' split
  all_goals simp
  all_goals omega

end Benker
