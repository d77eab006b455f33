import Verif.Lemmas.Geometry

/-! Properties C05–C13: sizes, coordinates and boxes. -/

namespace Benker

/-! ### C05 -/

/-- Spec: the numbers which can be added to the members: an `int`, or a `bool` which counts as 0 or 1 -/
inductive Number : PyVal → Int → Prop
  | int (i : Int) : Number (.int i) i
  | true : Number (.bool true) 1
  | false : Number (.bool false) 0

theorem toNum_iff {a : PyVal} {i : Int} : a.toNum = .ok i ↔ Number a i := by
  constructor
  · intro h
    cases a with
    | int j => cases h; exact .int _
    | bool b => cases b <;> cases h <;> constructor
    | _ => cases h
  · intro h
    cases h <;> rfl

/-- Spec: the offset `(dx, dy)` denoted by an operand of `+`/`-`: a `Size`, an `int`
(added to both members) or a plain tuple whose first two members are numbers. -/
inductive Offset : PyVal → Int → Int → Prop
  | size (s : Size) : Offset (.size s) s.width s.height
  | int (i : Int) : Offset (.int i) i i
  | tuple {a b : PyVal} {i j : Int} (rest : List PyVal) :
      Number a i → Number b j → Offset (.tuple (a :: b :: rest)) i j

theorem tuplePair_ok {l : List PyVal} {p : Int × Int} (h : tuplePair l = .ok p) :
    Offset (.tuple l) p.1 p.2 := by
  unfold tuplePair pyGetNat at h
  match l with
  | [] => simp [bind, Except.bind] at h
  | [a] =>
    simp [bind, Except.bind] at h
    split at h <;> simp at h
  | a :: b :: rest =>
    simp [bind, Except.bind] at h
    split at h
    · cases h
    · rename_i i hi
      split at h
      · cases h
      · rename_i j hj
        cases h
        exact .tuple rest (toNum_iff.mp hi) (toNum_iff.mp hj)

theorem tuplePair_of_offset {l : List PyVal} {i j : Int} (h : Offset (.tuple l) i j) :
    tuplePair l = .ok (i, j) := by
  cases h with
  | tuple rest hi hj => simp [tuplePair, pyGetNat, bind, Except.bind, toNum_iff.mpr hi, toNum_iff.mpr hj, pure, Except.pure]

/-- **C05.** `c + v` is defined exactly when `v` denotes an offset, and is the translated coordinate;
the same for `c - v`. -/
theorem C05_coord_add_sub (c d : Coord) (v : PyVal) :
    (c.add v = .ok d ↔ ∃ i j, Offset v i j ∧ d = ⟨c.x + i, c.y + j⟩) ∧
    (c.sub v = .ok d ↔ ∃ i j, Offset v i j ∧ d = ⟨c.x - i, c.y - j⟩) := by
  constructor
  · constructor
    · intro h
      unfold Coord.add at h
      split at h
      · cases h; exact ⟨_, _, .size _, rfl⟩
      · rename_i l
        simp only [bind, Except.bind] at h
        split at h
        · cases h
        · rename_i p hp
          cases h
          exact ⟨_, _, tuplePair_ok hp, rfl⟩
      · cases h; exact ⟨_, _, .int _, rfl⟩
      · cases h
    · rintro ⟨i, j, ho, rfl⟩
      cases ho with
      | size s => rfl
      | int i => rfl
      | tuple rest hi hj =>
        simp [Coord.add, tuplePair_of_offset (.tuple rest hi hj), bind, Except.bind, pure, Except.pure]
  · constructor
    · intro h
      unfold Coord.sub at h
      split at h
      · cases h; exact ⟨_, _, .size _, rfl⟩
      · rename_i l
        simp only [bind, Except.bind] at h
        split at h
        · cases h
        · rename_i p hp
          cases h
          exact ⟨_, _, tuplePair_ok hp, rfl⟩
      · cases h; exact ⟨_, _, .int _, rfl⟩
      · cases h
    · rintro ⟨i, j, ho, rfl⟩
      cases ho with
      | size s => rfl
      | int i => rfl
      | tuple rest hi hj =>
        simp [Coord.sub, tuplePair_of_offset (.tuple rest hi hj), bind, Except.bind, pure, Except.pure]

/-- **C05.** Adding then subtracting the same operand, or the reverse, is the identity. -/
theorem C05_coord_add_sub_cancel (c d : Coord) (v : PyVal) :
    (c.add v = .ok d ↔ d.sub v = .ok c) := by
  rw [(C05_coord_add_sub c d v).1, (C05_coord_add_sub d c v).2]
  constructor
  · rintro ⟨i, j, ho, rfl⟩; exact ⟨i, j, ho, by cases c; simp⟩
  · rintro ⟨i, j, ho, rfl⟩; exact ⟨i, j, ho, by cases d; simp⟩

/-- **C05.** The same for sizes. -/
theorem C05_size_add_sub (s t : Size) (v : PyVal) :
    (s.add v = .ok t ↔ ∃ i j, Offset v i j ∧ t = ⟨s.width + i, s.height + j⟩) ∧
    (s.sub v = .ok t ↔ ∃ i j, Offset v i j ∧ t = ⟨s.width - i, s.height - j⟩) ∧
    (s.add v = .ok t ↔ t.sub v = .ok s) := by
  have hs : ∀ s t : Size, (s.add v = .ok t ↔ ∃ i j, Offset v i j ∧ t = ⟨s.width + i, s.height + j⟩) ∧
      (s.sub v = .ok t ↔ ∃ i j, Offset v i j ∧ t = ⟨s.width - i, s.height - j⟩) := by
    intro s t
    have e1 : (Coord.mk s.width s.height).add v = .ok ⟨t.width, t.height⟩ ↔ s.add v = .ok t := by
      unfold Coord.add Size.add
      split
      · simp [Coord.addSize]; cases t; simp
      · simp only [bind, Except.bind]; split
        · simp
        · cases t; simp [pure, Except.pure]
      · cases t; simp
      · simp
    have e2 : (Coord.mk s.width s.height).sub v = .ok ⟨t.width, t.height⟩ ↔ s.sub v = .ok t := by
      unfold Coord.sub Size.sub
      split
      · cases t; simp
      · simp only [bind, Except.bind]; split
        · simp
        · cases t; simp [pure, Except.pure]
      · cases t; simp [Coord.subInt]
      · simp
    rw [← e1, ← e2, (C05_coord_add_sub _ _ _).1, (C05_coord_add_sub _ _ _).2]
    cases t; simp
  refine ⟨(hs s t).1, (hs s t).2, ?_⟩
  rw [(hs s t).1, (hs t s).2]
  constructor
  · rintro ⟨i, j, ho, rfl⟩; exact ⟨i, j, ho, by cases s; simp⟩
  · rintro ⟨i, j, ho, rfl⟩; exact ⟨i, j, ho, by cases t; simp⟩

/-- **C05.** Sizes form a commutative group, scaled by integers. -/
theorem C05_size_group (a b c : Size) (k l : Int) :
    a.add (.size b) = b.add (.size a) ∧
    (a.add (.size b)).bind (·.add (.size c)) = (b.add (.size c)).bind (fun bc => a.add (.size bc)) ∧
    a.add (.size ⟨0, 0⟩) = .ok a ∧ a.pos = a ∧
    a.add (.size a.neg) = .ok ⟨0, 0⟩ ∧ a.sub (.size b) = a.add (.size b.neg) ∧
    a.mul (.int 1) = .ok a ∧ a.mul (.int (-1)) = .ok a.neg ∧
    (a.mul (.int k)).bind (·.mul (.int l)) = a.mul (.int (k * l)) ∧
    (a.add (.size b)).bind (·.mul (.int k)) =
      (a.mul (.int k)).bind (fun ak => (b.mul (.int k)).bind (fun bk => ak.add (.size bk))) := by
  refine ⟨?_, ?_, ?_, ?_, ?_, ?_, ?_, ?_, ?_, ?_⟩
  all_goals simp [Size.add, Size.sub, Size.neg, Size.pos, Size.mul, Except.bind,
      Int.mul_assoc, Int.add_mul]
  all_goals omega

/-- **C05.** Meaningless operands raise `TypeError`: coordinate plus or minus coordinate, anything but an
integer as a factor, and any operand which is not a `Size`, a tuple or an `int`. -/
theorem C05_type_errors (c c' : Coord) (s : Size) (v : PyVal) :
    c.add (.coord c') = .error .typeError ∧ c.sub (.coord c') = .error .typeError ∧
    s.add (.coord c') = .error .typeError ∧ s.sub (.coord c') = .error .typeError ∧
    ((∀ k, v ≠ .int k) → s.mul v = .error .typeError) ∧
    ((∀ k, v ≠ .int k) → (∀ k, v ≠ .size k) → (∀ l, v ≠ .tuple l) →
      c.add v = .error .typeError ∧ c.sub v = .error .typeError ∧
      s.add v = .error .typeError ∧ s.sub v = .error .typeError) := by
  refine ⟨rfl, rfl, rfl, rfl, ?_, ?_⟩
  · intro h; cases v <;> first | rfl | (rename_i k; exact absurd rfl (h k))
  · intro h1 h2 h3
    cases v
    case int k => exact absurd rfl (h1 k)
    case size k => exact absurd rfl (h2 k)
    case tuple k => exact absurd rfl (h3 k)
    all_goals exact ⟨rfl, rfl, rfl, rfl⟩

/-- The offset relation is inhabited in its three forms. -/
example : Offset (.size ⟨3, 3⟩) 3 3 ∧ Offset (.int (-2)) (-2) (-2) ∧ Offset (.tuple [.int 1, .bool true]) 1 1 :=
  ⟨.size _, .int _, .tuple [] (.int _) .true⟩
example : (Coord.mk 2 1).add (.size ⟨3, 3⟩) = .ok ⟨5, 4⟩ := rfl

/-! ### C06 -/

/-- Spec: the corners requested by the arguments of `Box(...)`, in the documented forms. -/
inductive Requests : List PyVal → Box → Prop
  | corners (a b : Coord) : Requests [.coord a, .coord b] ⟨a, b⟩
  | sized (a : Coord) (s : Size) :
      Requests [.coord a, .size s] ⟨a, ⟨a.x + s.width - 1, a.y + s.height - 1⟩⟩
  | point (a : Coord) : Requests [.coord a] ⟨a, a⟩
  | ints (x y x' y' : Int) : Requests [.int x, .int y, .int x', .int y'] ⟨⟨x, y⟩, ⟨x', y'⟩⟩
  | intPoint (x y : Int) : Requests [.int x, .int y] ⟨⟨x, y⟩, ⟨x, y⟩⟩

/-- **C06.** For each documented form the constructor returns the requested box if it is a non-empty
area of the quadrant and raises `ValueError` otherwise. -/
theorem C06_box_new (args : List PyVal) (b : Box) (h : Requests args b) :
    (b.Valid → Box.new args = .ok b) ∧ (¬ b.Valid → Box.new args = .error .valueError) := by
  have key : ∀ x y x' y', ((⟨⟨x, y⟩, ⟨x', y'⟩⟩ : Box).Valid → Box.make x y x' y' = .ok ⟨⟨x, y⟩, ⟨x', y'⟩⟩) ∧
      (¬ (⟨⟨x, y⟩, ⟨x', y'⟩⟩ : Box).Valid → Box.make x y x' y' = .error .valueError) :=
    fun x y x' y' => ⟨fun hv => make_eq_ok hv, fun hv => make_eq_error hv⟩
  cases h with
  | corners a b => exact key ..
  | sized a s => exact key ..
  | point a => exact key ..
  | ints => exact key ..
  | intPoint => exact key ..

/-- **C06.** Any other argument list raises `TypeError`, except a single box, which is returned as is. -/
theorem C06_box_new_other (args : List PyVal) (h : ∀ b, ¬ Requests args b) :
    (∃ b, args = [.box b] ∧ Box.new args = .ok b) ∨ Box.new args = .error .typeError := by
  unfold Box.new
  split
  · exact absurd (.corners _ _) (h _)
  · exact absurd (.sized _ _) (h _)
  · exact absurd (.point _) (h _)
  · exact absurd (.ints ..) (h _)
  · exact absurd (.intPoint ..) (h _)
  · exact .inl ⟨_, rfl, rfl⟩
  · exact .inr rfl

/-- **C06.** Whatever the arguments, a constructed box is valid (if boxes given as arguments are). -/
theorem C06_box_valid (args : List PyVal) (b : Box) (h : Box.new args = .ok b)
    (hargs : ∀ b', PyVal.box b' ∈ args → b'.Valid) : b.Valid := by
  unfold Box.new at h
  split at h
  case h_6 => cases h; exact hargs _ (by simp)
  case h_7 => cases h
  all_goals exact (make_ok h).2

example : Requests [.int 1, .int 1, .int 5, .int 3] ⟨⟨1, 1⟩, ⟨5, 3⟩⟩ ∧ (⟨⟨1, 1⟩, ⟨5, 3⟩⟩ : Box).Valid ∧
    ¬ (⟨⟨0, 1⟩, ⟨5, 3⟩⟩ : Box).Valid := ⟨.ints .., by decide, by decide⟩
example : Box.new [.int 3, .bool true] = .error .typeError := rfl

/-! ### C07 -/

/-- the coordinates of a rectangle, row by row -/
def pointsOf (b : Box) : List Coord :=
  (pyRange b.min.y (b.max.y + 1)).flatMap (fun y => (pyRange b.min.x (b.max.x + 1)).map (fun x => ⟨x, y⟩))

theorem pyRange_nodup (a b : Int) : (pyRange a b).Nodup := by
  unfold pyRange
  rw [List.nodup_iff_pairwise_ne, List.pairwise_map]
  exact (List.nodup_range (n := (b - a).toNat)).imp (by intro i j h; omega)

theorem pyRange_length (a b : Int) : (pyRange a b).length = (b - a).toNat := by simp [pyRange]

/-- **C07.** Width and height are positive and their product counts the coordinates of the box. -/
theorem C07_area (b : Box) (h : b.Valid) :
    1 ≤ b.width ∧ 1 ≤ b.height ∧ b.size = ⟨b.width, b.height⟩ ∧
    ∃ points : List Coord, points.Nodup ∧ (∀ p, p ∈ points ↔ InBox p b) ∧
      (points.length : Int) = b.width * b.height := by
  unfold Box.Valid at h
  refine ⟨by unfold Box.width; omega, by unfold Box.height; omega, rfl, pointsOf b, ?_, ?_, ?_⟩
  · unfold pointsOf
    rw [List.nodup_iff_pairwise_ne, List.pairwise_flatMap]
    constructor
    · intro y _
      rw [List.pairwise_map]
      exact (pyRange_nodup _ _).imp (by intro i j h h'; cases h'; exact h rfl)
    · refine (pyRange_nodup b.min.y (b.max.y + 1)).imp ?_
      intro y y' hne p hp q hq
      simp only [List.mem_map] at hp hq
      obtain ⟨_, _, rfl⟩ := hp
      obtain ⟨_, _, rfl⟩ := hq
      intro h'; cases h'; exact hne rfl
  · intro p
    simp only [pointsOf, List.mem_flatMap, List.mem_map, mem_pyRange, InBox]
    constructor
    · rintro ⟨y, hy, x, hx, rfl⟩; dsimp; omega
    · intro hp; exact ⟨p.y, by omega, p.x, by omega, rfl⟩
  · unfold pointsOf
    rw [List.length_flatMap]
    simp only [List.length_map, pyRange_length]
    have : ∀ (l : List Int) (k : Nat), (l.map (fun _ => k)).sum = l.length * k := by
      intro l k; induction l with
      | nil => simp
      | cons a l ih => simp [ih, Nat.add_mul, Nat.add_comm]
    rw [this, pyRange_length]
    unfold Box.width Box.height
    rw [Int.natCast_mul, Int.toNat_of_nonneg (by omega), Int.toNat_of_nonneg (by omega), Int.mul_comm]
    congr 1 <;> omega

/-- **C07.** `move_to(coord)` succeeds iff the coordinate is in the quadrant, keeps the size and puts the
top-left corner there. -/
theorem C07_move_to (b : Box) (h : b.Valid) (c : Coord) :
    (1 ≤ c.x ∧ 1 ≤ c.y → ∃ r, b.moveTo (.coord c) = .ok r ∧ r.min = c ∧ r.size = b.size ∧ r.Valid) ∧
    (¬ (1 ≤ c.x ∧ 1 ≤ c.y) → b.moveTo (.coord c) = .error .valueError) := by
  unfold Box.Valid at h
  have e : b.moveTo (.coord c) = Box.make c.x c.y (c.x + b.width - 1) (c.y + b.height - 1) := rfl
  rw [e]
  unfold Box.width Box.height
  constructor
  · intro hc
    rw [make_eq_ok (by omega)]
    refine ⟨_, rfl, rfl, ?_, ?_⟩
    · simp only [Box.size, Box.width, Box.height, Size.mk.injEq]; omega
    · simp only [Box.Valid]; omega
  · intro hc; exact make_eq_error (by omega)

/-- **C07.** `resize(size)` succeeds iff the size is positive, keeps the top-left corner and has that size. -/
theorem C07_resize (b : Box) (h : b.Valid) (s : Size) :
    (1 ≤ s.width ∧ 1 ≤ s.height → ∃ r, b.resize (.size s) = .ok r ∧ r.min = b.min ∧ r.size = s ∧ r.Valid) ∧
    (¬ (1 ≤ s.width ∧ 1 ≤ s.height) → b.resize (.size s) = .error .valueError) := by
  unfold Box.Valid at h
  have e : b.resize (.size s) = Box.make b.min.x b.min.y (b.min.x + s.width - 1) (b.min.y + s.height - 1) := rfl
  rw [e]
  constructor
  · intro hc
    rw [make_eq_ok (by omega)]
    refine ⟨_, rfl, rfl, ?_, ?_⟩
    · cases s; simp only [Box.size, Box.width, Box.height, Size.mk.injEq]; omega
    · simp only [Box.Valid]; omega
  · intro hc; exact make_eq_error (by omega)

/-- **C07.** `transform(coord, size)` with both arguments does both; with none it is the identity; pairs of
integers are accepted in place of `Coord` and `Size`, and other types raise `TypeError`. -/
theorem C07_transform (b : Box) (h : b.Valid) (c : Coord) (s : Size) :
    (1 ≤ c.x ∧ 1 ≤ c.y ∧ 1 ≤ s.width ∧ 1 ≤ s.height →
      ∃ r, b.transformV (.coord c) (.size s) = .ok r ∧ r.min = c ∧ r.size = s ∧ r.Valid) ∧
    (¬ (1 ≤ c.x ∧ 1 ≤ c.y ∧ 1 ≤ s.width ∧ 1 ≤ s.height) →
      b.transformV (.coord c) (.size s) = .error .valueError) ∧
    b.transformV .none .none = .ok b ∧
    b.transformV (.tuple [.int c.x, .int c.y]) (.tuple [.int s.width, .int s.height]) =
      b.transformV (.coord c) (.size s) ∧
    b.transformV (.size s) .none = .error .typeError ∧ b.transformV .none (.coord c) = .error .typeError := by
  unfold Box.Valid at h
  have e : b.transformV (.coord c) (.size s) = Box.make c.x c.y (c.x + s.width - 1) (c.y + s.height - 1) := rfl
  refine ⟨?_, ?_, ?_, rfl, rfl, rfl⟩
  · intro hc
    rw [e, make_eq_ok (by omega)]
    refine ⟨_, rfl, rfl, ?_, ?_⟩
    · cases s; simp only [Box.size, Box.width, Box.height, Size.mk.injEq]; omega
    · simp only [Box.Valid]; omega
  · intro hc; rw [e]; exact make_eq_error (by omega)
  · have : b.transformV .none .none =
        Box.make b.min.x b.min.y (b.min.x + (b.max.x - b.min.x + 1) - 1) (b.min.y + (b.max.y - b.min.y + 1) - 1) := rfl
    rw [this, make_eq_ok (by omega)]
    congr 1
    apply box_ext <;> dsimp <;> omega

example : (⟨⟨5, 6⟩, ⟨7, 8⟩⟩ : Box).Valid ∧
    (⟨⟨5, 6⟩, ⟨7, 8⟩⟩ : Box).moveTo (.coord ⟨1, 2⟩) = .ok ⟨⟨1, 2⟩, ⟨3, 4⟩⟩ := ⟨by decide, rfl⟩

/-! ### C08 -/

/-- **C08.** A coordinate (or a pair of ints) is in the box iff it lies in the area; a box is in the box
iff all its coordinates are; other operands raise `TypeError`. -/
theorem C08_contains (b : Box) :
    (∀ c, b.contains (.coord c) = .ok (decide (InBox c b))) ∧
    (∀ x y, b.contains (.tuple [.int x, .int y]) = .ok (decide (InBox ⟨x, y⟩ b))) ∧
    (∀ i : Box, i.Valid → ∃ r, b.contains (.box i) = .ok r ∧ (r = true ↔ Within i b)) ∧
    (∀ v, (∀ c, v ≠ .coord c) → (∀ x y, v ≠ .tuple [.int x, .int y]) → (∀ i, v ≠ .box i) →
      b.contains v = .error .typeError) := by
  have hc : ∀ c, b.hasCoord c = decide (InBox c b) := fun c => by
    rw [Bool.eq_iff_iff]; simp
  refine ⟨fun c => by simp [Box.contains, hc], fun x y => by simp [Box.contains, hc],
    fun i hi => ⟨_, rfl, hasBox_iff hi⟩, ?_⟩
  intro v h1 h2 h3
  unfold Box.contains
  split
  · exact absurd rfl (h1 _)
  · exact absurd rfl (h2 _ _)
  · exact absurd rfl (h3 _)
  · rfl

/-- **C08.** `Box(c)` contains `c` only. -/
theorem C08_singleton (c p : Coord) (b : Box) (h : Box.new [.coord c] = .ok b) :
    b.contains (.coord p) = .ok (decide (p = c)) := by
  rw [(C08_contains b).1]
  obtain ⟨rfl, -⟩ := make_ok h
  congr 1
  rw [decide_eq_decide]
  simp only [InBox]
  constructor
  · intro h; cases p; cases c; simp_all; omega
  · rintro rfl; omega

/-- **C08.** Membership of boxes is transitive and antisymmetric. -/
theorem C08_order (a b c : Box) (ha : a.Valid) (hb : b.Valid) :
    (b.hasBox a = true → c.hasBox b = true → c.hasBox a = true) ∧
    (b.hasBox a = true → a.hasBox b = true → a = b) := by
  rw [hasBox_iff ha, hasBox_iff ha, hasBox_iff hb, hasBox_iff hb]
  exact ⟨fun h1 h2 p hp => h2 p (h1 p hp), within_antisymm ha hb⟩

example : (⟨⟨2, 2⟩, ⟨3, 3⟩⟩ : Box).Valid ∧ (⟨⟨1, 1⟩, ⟨5, 5⟩⟩ : Box).contains (.box ⟨⟨2, 2⟩, ⟨3, 3⟩⟩) = .ok true :=
  ⟨by decide, rfl⟩

/-! ### C09 -/

/-- Spec: neither corner is (weakly) above and to the left of the other. -/
def Incomparable (p q : Coord) : Prop := (p.x < q.x ∧ q.y < p.y) ∨ (q.x < p.x ∧ p.y < q.y)

/-- **C09.** Full statement, which is *false*: `intersect` decides overlap. -/
def C09_statement : Prop := ∀ a b : Box, a.Valid → b.Valid → (a.intersect b = true ↔ Overlap a b)

/-- **C09 (negation).** The boxes A2:B3 and B1:C2 share B2, but `intersect` answers `False`
(and `intersection` returns B2). -/
theorem C09_intersect_incomplete : ¬ C09_statement := by
  intro h
  have := h ⟨⟨1, 2⟩, ⟨2, 3⟩⟩ ⟨⟨2, 1⟩, ⟨3, 2⟩⟩ (by decide) (by decide)
  have ho : Overlap (⟨⟨1, 2⟩, ⟨2, 3⟩⟩ : Box) ⟨⟨2, 1⟩, ⟨3, 2⟩⟩ := ⟨⟨2, 2⟩, by decide, by decide⟩
  exact absurd (this.mpr ho) (by decide)

/-- The witness is also an inconsistency inside the API: disjoint boxes with a non-empty intersection. -/
theorem C09_disjoint_but_intersection :
    (⟨⟨1, 2⟩, ⟨2, 3⟩⟩ : Box).isdisjoint ⟨⟨2, 1⟩, ⟨3, 2⟩⟩ = true ∧
    (⟨⟨1, 2⟩, ⟨2, 3⟩⟩ : Box).intersection [⟨⟨2, 1⟩, ⟨3, 2⟩⟩] = .ok ⟨⟨2, 2⟩, ⟨2, 2⟩⟩ := by decide

/-- **C09 (exact characterisation).** `intersect` answers `True` iff the boxes overlap, except when both
the top-left corners and the bottom-right corners are incomparable (crossing or anti-diagonal overlap). -/
theorem C09_intersect_exact_partial (a b : Box) (ha : a.Valid) (hb : b.Valid) :
    a.intersect b = true ↔ Overlap a b ∧ ¬ (Incomparable a.min b.min ∧ Incomparable a.max b.max) := by
  rw [intersect_iff, overlap_iff ha hb]
  unfold InBox Incomparable Box.Valid at *
  omega

/-- **C09 (partial).** Soundness, symmetry and complement. -/
theorem C09_intersect_sound_partial (a b : Box) (ha : a.Valid) (hb : b.Valid) :
    (a.intersect b = true → Overlap a b) ∧ a.intersect b = b.intersect a ∧
    (a.isdisjoint b = !a.intersect b) ∧ a.isdisjoint b = b.isdisjoint a :=
  ⟨fun h => ((C09_intersect_exact_partial a b ha hb).mp h).1, intersect_comm a b, rfl,
    by simp [Box.isdisjoint, intersect_comm a b]⟩

/-- **C09 (partial).** `intersect` decides overlap when the corners are comparable: in particular for boxes
starting (or ending) in the same row or column, for boxes one of which contains the other, and when one of them is a single
coordinate. -/
theorem C09_intersect_complete_partial (a b : Box) (ha : a.Valid) (hb : b.Valid)
    (h : a.min.x = b.min.x ∨ a.min.y = b.min.y ∨ a.max.x = b.max.x ∨ a.max.y = b.max.y ∨
      Within a b ∨ Within b a ∨ a.min = a.max ∨ b.min = b.max) :
    a.intersect b = true ↔ Overlap a b := by
  rw [C09_intersect_exact_partial a b ha hb, overlap_iff ha hb]
  rw [within_iff ha, within_iff hb] at h
  obtain ⟨⟨_, _⟩, ⟨_, _⟩⟩ := a
  obtain ⟨⟨_, _⟩, ⟨_, _⟩⟩ := b
  unfold InBox Incomparable Box.Valid at *
  simp only [Coord.mk.injEq] at *
  omega

/-- **C09 (partial).** A box which is one row high (or one column wide) both times is decided exactly. -/
theorem C09_intersect_flat_partial (a b : Box) (ha : a.Valid) (hb : b.Valid)
    (h : (a.height = 1 ∧ b.height = 1) ∨ (a.width = 1 ∧ b.width = 1)) :
    a.intersect b = true ↔ Overlap a b := by
  rw [C09_intersect_exact_partial a b ha hb, overlap_iff ha hb]
  unfold Incomparable Box.Valid Box.width Box.height at *
  omega

example : (⟨⟨3, 2⟩, ⟨6, 4⟩⟩ : Box).intersect ⟨⟨4, 3⟩, ⟨5, 7⟩⟩ = true ∧
    (⟨⟨3, 2⟩, ⟨6, 4⟩⟩ : Box).Valid ∧ (⟨⟨4, 3⟩, ⟨5, 7⟩⟩ : Box).Valid := by decide

/-! ### C10 -/

/-- **C10.** The union of any collection of boxes exists, encloses each of them and is enclosed in every box
which encloses them all. -/
theorem C10_union_least (b : Box) (others : List Box) (hv : ∀ c ∈ b :: others, c.Valid) :
    ∃ u, b.union others = .ok u ∧ u.Valid ∧ (∀ c ∈ b :: others, Within c u) ∧
      ∀ w : Box, (∀ c ∈ b :: others, Within c w) → Within u w := by
  obtain ⟨u, hu, hval, hin, ⟨c1, h1, e1⟩, ⟨c2, h2, e2⟩, ⟨c3, h3, e3⟩, ⟨c4, h4, e4⟩⟩ := union_spec b others hv
  refine ⟨u, hu, hval, hin, fun w hw => ?_⟩
  have w1 := (within_iff (hv _ h1)).mp (hw _ h1)
  have w2 := (within_iff (hv _ h2)).mp (hw _ h2)
  have w3 := (within_iff (hv _ h3)).mp (hw _ h3)
  have w4 := (within_iff (hv _ h4)).mp (hw _ h4)
  rw [within_iff hval]
  simp only [InBox, Box.Valid] at *
  omega

/-- **C10.** The union depends only on the set of boxes: order, grouping and repetitions do not matter. -/
theorem C10_union_set (b b' : Box) (others others' : List Box) (hv : ∀ c ∈ b :: others, c.Valid)
    (hset : ∀ c, c ∈ b :: others ↔ c ∈ b' :: others') : b.union others = b'.union others' := by
  obtain ⟨u, hu, hval, hin, hmin⟩ := C10_union_least b others hv
  obtain ⟨u', hu', hval', hin', hmin'⟩ := C10_union_least b' others' (fun c hc => hv c ((hset c).mpr hc))
  rw [hu, hu']
  congr 1
  exact within_antisymm hval hval' (hmin u' (fun c hc => hin' c ((hset c).mp hc)))
    (hmin' u (fun c hc => hin c ((hset c).mpr hc)))

/-- **C10.** Grouping: the union of a union is the union of everything. -/
theorem C10_union_assoc (b : Box) (xs ys : List Box) (hv : ∀ c ∈ b :: (xs ++ ys), c.Valid) :
    (b.union xs).bind (fun u => u.union ys) = b.union (xs ++ ys) := by
  obtain ⟨u, hu, hval, hin, hmin⟩ := C10_union_least b xs
    (fun c hc => hv c (by simp only [List.mem_cons, List.mem_append] at hc ⊢; rcases hc with h | h <;> simp [h]))
  have hvy : ∀ c ∈ u :: ys, c.Valid := by
    intro c hc
    rcases List.mem_cons.mp hc with rfl | hc
    · exact hval
    · exact hv c (by simp [hc])
  obtain ⟨v, hv1, hval1, hin1, hmin1⟩ := C10_union_least u ys hvy
  obtain ⟨w, hw1, hval2, hin2, hmin2⟩ := C10_union_least b (xs ++ ys) hv
  rw [hu, hw1]
  show u.union ys = _
  rw [hv1]
  congr 1
  apply within_antisymm hval1 hval2
  · refine hmin1 w (fun c hc => ?_)
    rcases List.mem_cons.mp hc with rfl | hc
    · exact hmin w (fun d hd => hin2 d (by
        simp only [List.mem_cons, List.mem_append] at hd ⊢; rcases hd with h | h <;> simp [h]))
    · exact hin2 c (by simp [hc])
  · refine hmin2 v (fun c hc => ?_)
    simp only [List.mem_cons, List.mem_append] at hc
    have huv := hin1 u (by simp)
    rcases hc with rfl | hc | hc
    · exact fun p hp => huv p (hin _ (by simp) p hp)
    · exact fun p hp => huv p (hin c (by simp [hc]) p hp)
    · exact hin1 c (by simp [hc])

example : (∀ c ∈ [(⟨⟨3, 2⟩, ⟨6, 4⟩⟩ : Box), ⟨⟨4, 3⟩, ⟨5, 7⟩⟩], c.Valid) ∧
    (⟨⟨3, 2⟩, ⟨6, 4⟩⟩ : Box).union [⟨⟨4, 3⟩, ⟨5, 7⟩⟩] = .ok ⟨⟨3, 2⟩, ⟨6, 7⟩⟩ := by decide

/-! ### C11 -/

/-- **C11.** The intersection of a collection of boxes exists iff some coordinate is common to all of them, and is
then the set of their common coordinates; otherwise `ValueError` is raised. -/
theorem C11_intersection (b : Box) (others : List Box) (hv : ∀ c ∈ b :: others, c.Valid) :
    ((∃ p, ∀ c ∈ b :: others, InBox p c) →
      ∃ r, b.intersection others = .ok r ∧ r.Valid ∧ ∀ p, InBox p r ↔ ∀ c ∈ b :: others, InBox p c) ∧
    ((¬ ∃ p, ∀ c ∈ b :: others, InBox p c) → b.intersection others = .error .valueError) := by
  have e1 := le_maxOf b.min.x (others.map (·.min.x))
  have e2 := le_maxOf b.min.y (others.map (·.min.y))
  have e3 := minOf_le b.max.x (others.map (·.max.x))
  have e4 := minOf_le b.max.y (others.map (·.max.y))
  have m1 := maxOf_mem b.min.x (others.map (·.min.x))
  have m2 := maxOf_mem b.min.y (others.map (·.min.y))
  have m3 := minOf_mem b.max.x (others.map (·.max.x))
  have m4 := minOf_mem b.max.y (others.map (·.max.y))
  unfold Box.intersection
  generalize Box.maxOf b.min.x (others.map (·.min.x)) = x1 at *
  generalize Box.maxOf b.min.y (others.map (·.min.y)) = y1 at *
  generalize Box.minOf b.max.x (others.map (·.max.x)) = x2 at *
  generalize Box.minOf b.max.y (others.map (·.max.y)) = y2 at *
  have f1 : ∀ c ∈ b :: others, c.min.x ≤ x1 := fun c hc =>
    e1 _ (by rw [← List.map_cons (f := fun c : Box => c.min.x)]; exact List.mem_map_of_mem hc)
  have f2 : ∀ c ∈ b :: others, c.min.y ≤ y1 := fun c hc =>
    e2 _ (by rw [← List.map_cons (f := fun c : Box => c.min.y)]; exact List.mem_map_of_mem hc)
  have f3 : ∀ c ∈ b :: others, x2 ≤ c.max.x := fun c hc =>
    e3 _ (by rw [← List.map_cons (f := fun c : Box => c.max.x)]; exact List.mem_map_of_mem hc)
  have f4 : ∀ c ∈ b :: others, y2 ≤ c.max.y := fun c hc =>
    e4 _ (by rw [← List.map_cons (f := fun c : Box => c.max.y)]; exact List.mem_map_of_mem hc)
  rw [← List.map_cons (f := fun c : Box => c.min.x)] at m1
  rw [← List.map_cons (f := fun c : Box => c.min.y)] at m2
  rw [← List.map_cons (f := fun c : Box => c.max.x)] at m3
  rw [← List.map_cons (f := fun c : Box => c.max.y)] at m4
  obtain ⟨c1, h1, g1⟩ := List.mem_map.mp m1
  obtain ⟨c2, h2, g2⟩ := List.mem_map.mp m2
  obtain ⟨c3, h3, g3⟩ := List.mem_map.mp m3
  obtain ⟨c4, h4, g4⟩ := List.mem_map.mp m4
  have hpts : ∀ p, InBox p (⟨⟨x1, y1⟩, ⟨x2, y2⟩⟩ : Box) ↔ ∀ c ∈ b :: others, InBox p c := by
    intro p
    constructor
    · intro hp c hc
      have := f1 c hc; have := f2 c hc; have := f3 c hc; have := f4 c hc
      simp only [InBox] at *; omega
    · intro hp
      have := hp c1 h1; have := hp c2 h2; have := hp c3 h3; have := hp c4 h4
      simp only [InBox] at *; omega
  have v1 := hv c1 h1
  have v2 := hv c2 h2
  constructor
  · rintro ⟨p, hp⟩
    have hp' := (hpts p).mpr hp
    have hval : 1 ≤ x1 ∧ x1 ≤ x2 ∧ 1 ≤ y1 ∧ y1 ≤ y2 := by
      simp only [InBox, Box.Valid] at *; omega
    exact ⟨_, make_eq_ok hval, hval, hpts⟩
  · intro hno
    apply make_eq_error
    intro hval
    exact hno ⟨⟨x1, y1⟩, (hpts _).mp (by simp only [InBox]; omega)⟩

example : ∃ p, ∀ c ∈ [(⟨⟨3, 2⟩, ⟨6, 4⟩⟩ : Box), ⟨⟨4, 3⟩, ⟨5, 7⟩⟩], InBox p c := ⟨⟨4, 3⟩, by decide⟩
example : (⟨⟨3, 2⟩, ⟨6, 4⟩⟩ : Box).intersection [⟨⟨7, 2⟩, ⟨7, 2⟩⟩] = .error .valueError := by decide

/-! ### C12 -/

/-- **C12.** `<` is reading order, and a strict total order. -/
theorem C12_lt_strict_total (a b c : Box) :
    (a.lt b = true ↔ ReadsBefore a b) ∧
    a.lt a = false ∧
    (a.lt b = true → b.lt c = true → a.lt c = true) ∧
    (a ≠ b → (a.lt b = true ∧ b.lt a = false) ∨ (a.lt b = false ∧ b.lt a = true)) := by
  refine ⟨lt_iff a b, ?_, ?_, ?_⟩
  · rw [Bool.eq_false_iff, Ne, lt_iff]; unfold ReadsBefore; omega
  · rw [lt_iff, lt_iff, lt_iff]; unfold ReadsBefore; omega
  · intro hne
    rw [Bool.eq_false_iff, Bool.eq_false_iff, Ne, Ne, lt_iff, lt_iff]
    have : ¬ (a.min.x = b.min.x ∧ a.min.y = b.min.y ∧ a.max.x = b.max.x ∧ a.max.y = b.max.y) :=
      fun h => hne (box_ext h.1 h.2.1 h.2.2.1 h.2.2.2)
    unfold ReadsBefore; omega

example : (⟨⟨3, 2⟩, ⟨6, 4⟩⟩ : Box).lt ⟨⟨3, 2⟩, ⟨6, 5⟩⟩ = true ∧ (⟨⟨5, 1⟩, ⟨5, 1⟩⟩ : Box).lt ⟨⟨1, 2⟩, ⟨1, 2⟩⟩ = true := by decide

/-! ### C13 -/

/-- **C13.** Full statement, which is *false*: the six comparison operators agree. -/
def C13_statement : Prop := ∀ a b : Box, a.Valid → b.Valid →
  (a.gt b = b.lt a) ∧ (a.le b = (a.lt b || decide (a = b))) ∧ (a.ge b = b.le a)

/-- **C13 (negation).** B1 < A2 and B1 > A2 are both true, and B1 <= A2 is false. -/
theorem C13_operators_disagree :
    ¬ C13_statement ∧
    (⟨⟨2, 1⟩, ⟨2, 1⟩⟩ : Box).lt ⟨⟨1, 2⟩, ⟨1, 2⟩⟩ = true ∧
    (⟨⟨2, 1⟩, ⟨2, 1⟩⟩ : Box).gt ⟨⟨1, 2⟩, ⟨1, 2⟩⟩ = true ∧
    (⟨⟨2, 1⟩, ⟨2, 1⟩⟩ : Box).le ⟨⟨1, 2⟩, ⟨1, 2⟩⟩ = false := by
  refine ⟨fun h => ?_, by decide, by decide, by decide⟩
  have := (h ⟨⟨2, 1⟩, ⟨2, 1⟩⟩ ⟨⟨1, 2⟩, ⟨1, 2⟩⟩ (by decide) (by decide)).1
  exact absurd this (by decide)

/-- Spec: order of the tuples `((min.x, min.y), (max.x, max.y))`. -/
def TupleLess (a b : Box) : Prop :=
  a.min.x < b.min.x ∨ (a.min.x = b.min.x ∧
  (a.min.y < b.min.y ∨ (a.min.y = b.min.y ∧
  (a.max.x < b.max.x ∨ (a.max.x = b.max.x ∧ a.max.y < b.max.y)))))

/-- **C13 (exact characterisation).** `>` and `<=` compare columns first. -/
theorem C13_gt_le_exact_partial (a b : Box) :
    (a.gt b = true ↔ TupleLess b a) ∧ (a.le b = true ↔ ¬ TupleLess b a) ∧ (a.ge b = true ↔ ¬ TupleLess a b) := by
  obtain ⟨⟨_, _⟩, ⟨_, _⟩⟩ := a
  obtain ⟨⟨_, _⟩, ⟨_, _⟩⟩ := b
  simp only [Box.ge, Box.le, Box.gt, Box.tupleCmp, Box.pairCmp, Coord.mk.injEq, TupleLess]
  refine ⟨?_, ?_, ?_⟩
  all_goals repeat' split
  all_goals simp only [decide_eq_true_eq]
  all_goals omega

/-- **C13 (partial).** `>`, `<=` and `>=` agree with each other for all boxes: they are a total order. -/
theorem C13_tuple_operators_partial (a b : Box) :
    a.ge b = b.le a ∧ a.gt b = !a.le b ∧ (a.le b = true → b.le a = true → a = b) ∧
    (a.le b = true ∨ b.le a = true) := by
  have h1 := C13_gt_le_exact_partial a b
  have h2 := C13_gt_le_exact_partial b a
  refine ⟨?_, ?_, ?_, ?_⟩
  · rw [Bool.eq_iff_iff, h1.2.2, h2.2.1]
  · rw [Bool.eq_iff_iff, Bool.not_eq_true', Bool.eq_false_iff, Ne, h1.1, h1.2.1]; simp
  · rw [h1.2.1, h2.2.1]
    intro e1 e2
    unfold TupleLess at e1 e2
    apply box_ext <;> omega
  · rw [h1.2.1, h2.2.1]; unfold TupleLess; omega

/-- **C13 (partial).** All operators agree for boxes of the same columns and for boxes of the same rows. -/
theorem C13_same_line_partial (a b : Box)
    (h : (a.min.x = b.min.x ∧ a.max.x = b.max.x) ∨ (a.min.y = b.min.y ∧ a.max.y = b.max.y)) :
    (a.gt b = b.lt a) ∧ (a.le b = (a.lt b || decide (a = b))) ∧ (a.ge b = b.le a) := by
  have h1 := C13_gt_le_exact_partial a b
  refine ⟨?_, ?_, (C13_tuple_operators_partial a b).1⟩
  · rw [Bool.eq_iff_iff, h1.1, lt_iff]
    unfold TupleLess ReadsBefore; omega
  · rw [Bool.eq_iff_iff, h1.2.1, Bool.or_eq_true, lt_iff, decide_eq_true_eq]
    have he : a = b ↔ (a.min.x = b.min.x ∧ a.min.y = b.min.y ∧ a.max.x = b.max.x ∧ a.max.y = b.max.y) :=
      ⟨fun h => by simp [h], fun h => box_ext h.1 h.2.1 h.2.2.1 h.2.2.2⟩
    rw [he]
    unfold TupleLess ReadsBefore; omega

example : ((⟨⟨2, 1⟩, ⟨2, 1⟩⟩ : Box).min.x = (⟨⟨2, 4⟩, ⟨2, 5⟩⟩ : Box).min.x) ∧
    (⟨⟨2, 4⟩, ⟨2, 5⟩⟩ : Box).gt ⟨⟨2, 1⟩, ⟨2, 1⟩⟩ = true := by decide

end Benker
