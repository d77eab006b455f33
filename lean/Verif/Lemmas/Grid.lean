import Verif.Lemmas.Geometry
import Verif.Spec.Grid

namespace Benker
variable {γ : Type}
open PyM

/-! ### bisect -/

theorem insertIdx_take_drop (l : List α) (k : Nat) (x : α) (h : k ≤ l.length) :
    l.insertIdx k x = l.take k ++ x :: l.drop k := by
  induction k generalizing l with
  | zero => simp
  | succ k ih =>
    cases l with
    | nil => simp at h
    | cons a l => simp [ih l (by simpa using h)]

theorem bisectLoop_spec (a : List Box) (x : Box)
    (hmono : a.Pairwise (fun p q => q.lt x = true → p.lt x = true)) :
    ∀ (lo hi : Nat), lo ≤ hi → hi ≤ a.length →
      (∀ i (h : i < a.length), i < lo → (a[i]).lt x = true) →
      (∀ i (h : i < a.length), hi ≤ i → (a[i]).lt x = false) →
      let r := bisectLoop a x lo hi
      r ≤ a.length ∧ (∀ i (h : i < a.length), i < r → (a[i]).lt x = true) ∧
        (∀ i (h : i < a.length), r ≤ i → (a[i]).lt x = false) := by
  rw [List.pairwise_iff_getElem] at hmono
  intro lo hi
  induction hn : hi - lo using Nat.strongRecOn generalizing lo hi with
  | _ n ih =>
    intro hle hlen hlo hhi
    rw [bisectLoop]
    by_cases h : lo < hi
    · simp only [h, dite_true]
      have hmid : (lo + hi) / 2 < a.length := by omega
      simp only [List.getElem?_eq_getElem hmid]
      split
      · rename_i hlt
        refine ih (hi - ((lo + hi) / 2 + 1)) (by omega) _ _ rfl (by omega) hlen ?_ hhi
        intro i hi' hi''
        rcases Nat.lt_or_ge i ((lo + hi) / 2) with h1 | h1
        · exact hmono i _ hi' hmid h1 hlt
        · have : i = (lo + hi) / 2 := by omega
          subst this; exact hlt
      · rename_i hlt
        refine ih ((lo + hi) / 2 - lo) (by omega) _ _ rfl (by omega) (by omega) hlo ?_
        intro i hi' hi''
        rcases Nat.lt_or_ge ((lo + hi) / 2) i with h1 | h1
        · cases hb : (a[i]).lt x with
          | false => rfl
          | true => exact absurd (hmono _ i hmid hi' h1 hb) hlt
        · have : i = (lo + hi) / 2 := by omega
          subst this; simpa using hlt
    · simp only [h, dite_false]
      refine ⟨by omega, hlo, ?_⟩
      intro i h1 h2
      exact hhi i h1 (by omega)

/-- `bisect_left` splits a monotone list at the first element which is not smaller -/
theorem bisectLeft_split (a : List Box) (x : Box)
    (hmono : a.Pairwise (fun p q => q.lt x = true → p.lt x = true)) :
    bisectLeft a x ≤ a.length ∧ (∀ b ∈ a.take (bisectLeft a x), b.lt x = true) ∧
      (∀ b ∈ a.drop (bisectLeft a x), b.lt x = false) := by
  obtain ⟨h1, h2, h3⟩ := bisectLoop_spec a x hmono 0 a.length (by omega) (by omega) (by omega) (by omega)
  refine ⟨h1, ?_, ?_⟩
  · intro b hb
    obtain ⟨i, hi, rfl⟩ := List.mem_iff_getElem.mp hb
    simp only [List.length_take] at hi
    rw [List.getElem_take]
    exact h2 i (by omega) (by unfold bisectLeft at hi; omega)
  · intro b hb
    obtain ⟨i, hi, rfl⟩ := List.mem_iff_getElem.mp hb
    simp only [List.length_drop] at hi
    rw [List.getElem_drop]
    exact h3 _ (by omega) (by unfold bisectLeft; omega)

/-! ### cells -/

theorem cell_new_of_box (content : Option γ) (st : Option Styles) (nat : Option String) (b : Box) (hb : b.Valid) :
    Cell.new content st nat b.min.x b.min.y b.width b.height = .ok ⟨content, copyStyles st, nat, b⟩ := by
  unfold Box.Valid at hb
  unfold Cell.new Box.width Box.height
  rw [make_eq_ok (by omega)]
  dsimp only
  congr 2
  apply box_ext <;> dsimp <;> omega

theorem cell_new_valid {content : Option γ} {st nat x y w h} {c : Cell γ}
    (hc : Cell.new content st nat x y w h = .ok c) :
    c.box.Valid ∧ c = ⟨content, copyStyles st, nat, ⟨⟨x, y⟩, ⟨x + w - 1, y + h - 1⟩⟩⟩ := by
  unfold Cell.new at hc
  split at hc
  · cases hc
  · rename_i b hb
    cases hc
    obtain ⟨rfl, hv⟩ := make_ok hb
    exact ⟨hv, rfl⟩

theorem cell_transform (c : Cell γ) (coord : Option Coord) (size : Option Size) :
    c.transform coord size = (c.box.transform coord size).map (fun b => { c with box := b }) := by
  unfold Cell.transform
  split
  · rename_i e he; rw [he]; rfl
  · rename_i b hb
    rw [hb]
    have hv : b.Valid := (make_ok hb).2
    rw [cell_new_of_box _ _ _ b hv]
    rfl

theorem cell_moveTo (cell : Cell γ) (hv : cell.box.Valid) (c : Coord) :
    cell.moveTo (.coord c) =
      if 1 ≤ c.x ∧ 1 ≤ c.y then .ok (movedTo cell c) else .error .valueError := by
  unfold Box.Valid at hv
  have e : cell.box.transformV (.coord c) .none =
    Box.make c.x c.y (c.x + cell.box.width - 1) (c.y + cell.box.height - 1) := rfl
  unfold Cell.moveTo Cell.transformV
  rw [e]
  unfold Box.width Box.height
  by_cases hc : 1 ≤ c.x ∧ 1 ≤ c.y
  · rw [if_pos hc, make_eq_ok (by omega)]
    show Cell.new _ _ _ _ _ (Box.width ⟨_, ⟨_, _⟩⟩) (Box.height ⟨_, ⟨_, _⟩⟩) = _
    rw [cell_new_of_box _ _ _ _ (by simp only [Box.Valid]; omega)]
    simp only [movedTo, copyStyles]
    congr 2
    apply box_ext <;> dsimp <;> omega
  · rw [if_neg hc, make_eq_error (by omega)]

theorem movedTo_valid (cell : Cell γ) (hv : cell.box.Valid) (c : Coord) (hc : 1 ≤ c.x ∧ 1 ≤ c.y) :
    (movedTo cell c).box.Valid := by
  simp only [movedTo, Box.Valid] at *; omega

theorem movedTo_self (cell : Cell γ) : movedTo cell cell.box.min = cell := by
  unfold movedTo
  have : (⟨cell.box.min, ⟨cell.box.min.x + (cell.box.max.x - cell.box.min.x),
      cell.box.min.y + (cell.box.max.y - cell.box.min.y)⟩⟩ : Box) = cell.box := by
    apply box_ext <;> dsimp <;> omega
  rw [this]

/-! ### the grid invariant -/

/-- cells are valid, pairwise not `intersect`, strictly sorted by top-left corner -/
structure Grid.Inv (g : Grid γ) : Prop where
  valid : ∀ c ∈ g.cells, c.box.Valid
  noIntersect : g.cells.Pairwise (fun a b => a.box.intersect b.box = false)
  sorted : g.cells.Pairwise (fun a b => CornerBefore a.box.min b.box.min)

theorem Grid.empty_inv : (Grid.empty : Grid γ).Inv :=
  ⟨by simp [Grid.empty], by simp [Grid.empty], by simp [Grid.empty]⟩

theorem lt_corner {b : Box} {m : Coord} (hne : b.min ≠ m) :
    b.lt ⟨m, m⟩ = true ↔ CornerBefore b.min m := by
  have : ¬ (b.min.x = m.x ∧ b.min.y = m.y) := fun h => hne (by
    cases hb : b.min; cases m; simp_all)
  rw [lt_iff]; unfold ReadsBefore CornerBefore; dsimp only; omega

theorem not_intersect_min {a b : Box} (ha : a.Valid) (h : a.intersect b = false) : a.min ≠ b.min := by
  intro he
  have : a.intersect b = true := by
    rw [intersect_iff]
    right; right; left
    rw [← he]
    unfold Box.Valid at ha; unfold InBox; omega
  rw [h] at this; cases this

/-- Insertion at the position given by `bisect_left`: the list is cut in the cells before and the cells after. -/
theorem insert_split (cells : List (Cell γ)) (new : Cell γ)
    (hv : ∀ c ∈ cells, c.box.Valid) (hs : cells.Pairwise (fun a b => CornerBefore a.box.min b.box.min))
    (hno : ∀ c ∈ cells, c.box.intersect new.box = false) :
    ∃ l1 l2, cells = l1 ++ l2 ∧
      cells.insertIdx (bisectLeft (cells.map (·.box)) ⟨new.box.min, new.box.min⟩) new = l1 ++ new :: l2 ∧
      (∀ c ∈ l1, CornerBefore c.box.min new.box.min) ∧ (∀ c ∈ l2, CornerBefore new.box.min c.box.min) := by
  have hne : ∀ c ∈ cells, c.box.min ≠ new.box.min := fun c hc => not_intersect_min (hv c hc) (hno c hc)
  have hmono : (cells.map (·.box)).Pairwise (fun p q =>
      q.lt ⟨new.box.min, new.box.min⟩ = true → p.lt ⟨new.box.min, new.box.min⟩ = true) := by
    rw [List.pairwise_map]
    refine List.Pairwise.imp_of_mem ?_ hs
    intro a b ha hb hab
    rw [lt_corner (hne a ha), lt_corner (hne b hb)]
    unfold CornerBefore at *; omega
  obtain ⟨h1, h2, h3⟩ := bisectLeft_split _ _ hmono
  generalize bisectLeft (cells.map (·.box)) ⟨new.box.min, new.box.min⟩ = k at *
  refine ⟨cells.take k, cells.drop k, (List.take_append_drop k cells).symm, ?_, ?_, ?_⟩
  · simp only [List.length_map] at h1
    exact insertIdx_take_drop _ _ _ h1
  · intro c hc
    have := h2 c.box (by rw [← List.map_take]; exact List.mem_map_of_mem hc)
    exact (lt_corner (hne c (List.mem_of_mem_take hc))).mp this
  · intro c hc
    have := h3 c.box (by rw [← List.map_drop]; exact List.mem_map_of_mem hc)
    have hn := hne c (List.mem_of_mem_drop hc)
    have h4 : ¬ CornerBefore c.box.min new.box.min := fun h => by
      rw [(lt_corner hn).mpr h] at this; cases this
    have : ¬ (c.box.min.x = new.box.min.x ∧ c.box.min.y = new.box.min.y) := fun h => hn (by
      cases hb : c.box.min; cases hb' : new.box.min; simp_all)
    unfold CornerBefore at *; omega

theorem inv_insert (l1 l2 : List (Cell γ)) (new : Cell γ) (hnew : new.box.Valid)
    (hinv : Grid.Inv (⟨l1 ++ l2⟩ : Grid γ))
    (hno : ∀ c ∈ l1 ++ l2, c.box.intersect new.box = false)
    (h1 : ∀ c ∈ l1, CornerBefore c.box.min new.box.min) (h2 : ∀ c ∈ l2, CornerBefore new.box.min c.box.min) :
    Grid.Inv (⟨l1 ++ new :: l2⟩ : Grid γ) := by
  obtain ⟨hv, hi, hs⟩ := hinv
  refine ⟨?_, ?_, ?_⟩
  · intro c hc
    simp only [List.mem_append, List.mem_cons] at hc
    rcases hc with hc | rfl | hc
    · exact hv c (by simp [hc])
    · exact hnew
    · exact hv c (by simp [hc])
  · rw [List.pairwise_append] at hi ⊢
    obtain ⟨a1, a2, a3⟩ := hi
    refine ⟨a1, ?_, ?_⟩
    · rw [List.pairwise_cons]
      exact ⟨fun c hc => by rw [intersect_comm]; exact hno c (by simp [hc]), a2⟩
    · intro a ha b hb
      rcases List.mem_cons.mp hb with rfl | hb
      · exact hno a (by simp [ha])
      · exact a3 a ha b hb
  · rw [List.pairwise_append] at hs ⊢
    obtain ⟨a1, a2, a3⟩ := hs
    refine ⟨a1, ?_, ?_⟩
    · rw [List.pairwise_cons]; exact ⟨fun c hc => h2 c hc, a2⟩
    · intro a ha b hb
      rcases List.mem_cons.mp hb with rfl | hb
      · exact h1 a ha
      · exact a3 a ha b hb

theorem inv_sublist {l l' : List (Cell γ)} (h : l'.Sublist l) (hinv : Grid.Inv (⟨l⟩ : Grid γ)) :
    Grid.Inv (⟨l'⟩ : Grid γ) :=
  ⟨fun c hc => hinv.valid c (h.mem hc), hinv.noIntersect.sublist h, hinv.sorted.sublist h⟩

/-! ### set -/

theorem box_new_coord (c : Coord) (h : 1 ≤ c.x ∧ 1 ≤ c.y) : Box.new [.coord c] = .ok ⟨c, c⟩ := by
  show Box.make c.x c.y c.x c.y = _
  rw [make_eq_ok (by omega)]

/-- all outcomes of `grid[v] = cell` for a valid cell -/
theorem setItem_cases (v : PyVal) (cell : Cell γ) (hc : cell.box.Valid) (g : Grid γ) :
    (Grid.setItem v cell g = (.error .typeError, g) ∧ Coord.fromValue v = .error .typeError) ∨
    (∃ c, Coord.fromValue v = .ok c ∧
      ((¬ (1 ≤ c.x ∧ 1 ≤ c.y) ∧ Grid.setItem v cell g = (.error .valueError, g)) ∨
       ((1 ≤ c.x ∧ 1 ≤ c.y) ∧
        (((∃ d ∈ g.cells, d.box.intersect (movedTo cell c).box = true) ∧
          Grid.setItem v cell g = (.error .keyError, g)) ∨
         ((∀ d ∈ g.cells, d.box.intersect (movedTo cell c).box = false) ∧
          Grid.setItem v cell g =
            (.ok (), ⟨g.cells.insertIdx (bisectLeft (g.cells.map (·.box)) ⟨c, c⟩) (movedTo cell c)⟩)))))) := by
  cases hv : Coord.fromValue v with
  | error e =>
    left
    have : e = .typeError := by
      unfold Coord.fromValue at hv; split at hv <;> cases hv; rfl
    subst this
    exact ⟨by simp [Grid.setItem, bind_run, hv], rfl⟩
  | ok c =>
    right
    refine ⟨c, rfl, ?_⟩
    have hm := cell_moveTo cell hc c
    by_cases hpos : 1 ≤ c.x ∧ 1 ≤ c.y
    · rw [if_pos hpos] at hm
      refine .inr ⟨hpos, ?_⟩
      by_cases hany : g.cells.any (fun d => d.box.intersect (movedTo cell c).box) = true
      · left
        refine ⟨by simpa using hany, ?_⟩
        simp only [Grid.setItem, bind_run, hv, hm, lift_run, get_run]
        rw [if_pos hany]; rfl
      · right
        refine ⟨by simpa using hany, ?_⟩
        simp only [Grid.setItem, bind_run, hv, hm, lift_run, get_run]
        rw [if_neg hany]
        have hb := box_new_coord c hpos
        simp only [bind_run, lift_run, movedTo, hb]
        rfl
    · rw [if_neg hpos] at hm
      exact .inl ⟨hpos, by simp [Grid.setItem, bind_run, hv, hm]⟩

theorem setItem_inv (v : PyVal) (cell : Cell γ) (hc : cell.box.Valid) (g : Grid γ) (hinv : g.Inv) :
    (Grid.setItem v cell g).2.Inv := by
  rcases setItem_cases v cell hc g with ⟨h, _⟩ | ⟨c, _, ⟨_, h⟩ | ⟨hpos, ⟨_, h⟩ | ⟨hno, h⟩⟩⟩
  · rw [h]; exact hinv
  · rw [h]; exact hinv
  · rw [h]; exact hinv
  · rw [h]
    have hval := movedTo_valid cell hc c hpos
    obtain ⟨l1, l2, e, e', h1, h2⟩ := insert_split g.cells (movedTo cell c) hinv.valid hinv.sorted hno
    have e'' : (movedTo cell c).box.min = c := rfl
    rw [e''] at e'
    simp only [e']
    refine inv_insert l1 l2 _ hval ?_ ?_ h1 h2
    · rw [← e]; exact hinv
    · rw [← e]; exact hno

/-! ### delete -/

theorem delItem_run (v : PyVal) (g : Grid γ) :
    Grid.delItem v g = match Coord.fromValue v with
      | .error e => (.error e, g)
      | .ok c => if g.cells.any (·.hasCoord c) then (.ok (), ⟨g.cells.eraseP (·.hasCoord c)⟩)
        else (.error .keyError, g) := by
  unfold Grid.delItem
  simp only [bind_run, lift_run, get_run]
  cases Coord.fromValue v with
  | error e => rfl
  | ok c => dsimp only; split <;> rfl

theorem delItem_inv (v : PyVal) (g : Grid γ) (hinv : g.Inv) : (Grid.delItem v g).2.Inv := by
  rw [delItem_run]
  split
  · exact hinv
  · split
    · exact inv_sublist List.eraseP_sublist hinv
    · exact hinv

/-! ### merge -/

theorem classify_cases (nb : Box) (cells : List (Cell γ)) :
    (Grid.classify nb cells = .ok (cells.filter (fun c => nb.hasBox c.box), cells.filter (fun c => !nb.hasBox c.box)) ∧
      ∀ c ∈ cells, nb.hasBox c.box = false → c.box.intersect nb = false) ∨
    (Grid.classify nb cells = .error .valueError ∧ ∃ c ∈ cells, nb.hasBox c.box = false ∧ c.box.intersect nb = true) := by
  induction cells with
  | nil => left; simp [Grid.classify]
  | cons c cells ih =>
    unfold Grid.classify
    by_cases hb : nb.hasBox c.box = true
    · simp only [hb, if_true]
      rcases ih with ⟨h, h'⟩ | ⟨h, d, hd, h'⟩
      · left; simp [h, hb]; simpa using h'
      · right; rw [h]; exact ⟨rfl, d, by simp [hd], h'⟩
    · simp only [hb]
      by_cases hi : c.box.intersect nb = true
      · right; simp [hi]; exact .inl (by simpa using hb)
      · simp only [hi]
        rcases ih with ⟨h, h'⟩ | ⟨h, d, hd, h'⟩
        · left
          simp [h, hb]
          exact ⟨by simpa using hi, h'⟩
        · right; simp only [h]; exact ⟨rfl, d, by simp [hd], h'⟩

theorem mergeLoop_fields (f : γ → γ → Except PyErr γ) (rest : List (Cell γ)) : ∀ (c r : Cell γ),
    Grid.mergeLoop f c rest = .ok r → r.box = c.box ∧ r.nature = c.nature ∧
      r.styles = rest.foldl (fun s d => s.update d.styles) c.styles := by
  induction rest with
  | nil => intro c r h; simp [Grid.mergeLoop] at h; subst h; simp
  | cons d rest ih =>
    intro c r h
    rw [Grid.mergeLoop] at h
    split at h
    · cases h
    · exact ih _ _ h

theorem mergeLoop_content (f : γ → γ → Except PyErr γ) (rest : List (Cell γ)) : ∀ (c : Cell γ),
    (Grid.mergeLoop f c rest).map (·.content) = combineContents f (c.content :: rest.map (·.content)) := by
  induction rest with
  | nil =>
    intro c
    cases h : c.content <;> simp [Grid.mergeLoop, combineContents, Except.map, h, pure, Except.pure]
  | cons d rest ih =>
    intro c
    rw [Grid.mergeLoop]
    cases hc : c.content with
    | none =>
      simp only [Grid.mergeContent, List.map_cons]
      rw [ih]
      simp [combineContents]
    | some a =>
      cases hd : d.content with
      | none =>
        simp only [Grid.mergeContent, List.map_cons, hd]
        rw [ih]
        simp [combineContents]
      | some b =>
        simp only [Grid.mergeContent, List.map_cons, hd]
        cases hf : f a b with
        | error e => simp [combineContents, hf, Except.map, bind, Except.bind]
        | ok ab =>
          simp only [Except.map]
          have := ih { c with content := some ab, styles := c.styles.update d.styles }
          simp only [Except.map] at this
          rw [this]
          simp [combineContents, hf, bind, Except.bind, Except.map]

/-- the cells enclosed in a box, and the others -/
def enclosed (nb : Box) (cells : List (Cell γ)) : List (Cell γ) := cells.filter (fun c => nb.hasBox c.box)
def notEnclosed (nb : Box) (cells : List (Cell γ)) : List (Cell γ) := cells.filter (fun c => !nb.hasBox c.box)

theorem transform_to (first : Cell γ) (nb : Box) (h : nb.Valid) :
    first.transform (some nb.min) (some nb.size) = .ok { first with box := nb } := by
  rw [cell_transform]
  have : first.box.transform (some nb.min) (some nb.size) =
      Box.make nb.min.x nb.min.y (nb.min.x + (nb.max.x - nb.min.x + 1) - 1) (nb.min.y + (nb.max.y - nb.min.y + 1) - 1) := rfl
  rw [this]
  unfold Box.Valid at h
  rw [make_eq_ok (by omega)]
  show Except.ok _ = _
  congr 2
  apply box_ext <;> dsimp <;> omega

/-- all outcomes of `grid.merge(start, end)` -/
theorem merge_cases (s e : PyVal) (f : γ → γ → Except PyErr γ) (g : Grid γ) :
    ((Coord.fromValue s = .error .typeError ∨ Coord.fromValue e = .error .typeError) ∧
      Grid.merge s e f g = (.error .typeError, g)) ∨
    (∃ a b, Coord.fromValue s = .ok a ∧ Coord.fromValue e = .ok b ∧
      ((¬ (⟨a, b⟩ : Box).Valid ∧ Grid.merge s e f g = (.error .valueError, g)) ∨
       ((⟨a, b⟩ : Box).Valid ∧
        (((∃ c ∈ g.cells, (⟨a, b⟩ : Box).hasBox c.box = false ∧ c.box.intersect ⟨a, b⟩ = true) ∧
           Grid.merge s e f g = (.error .valueError, g)) ∨
         ((∀ c ∈ g.cells, (⟨a, b⟩ : Box).hasBox c.box = false → c.box.intersect ⟨a, b⟩ = false) ∧
          ((enclosed ⟨a, b⟩ g.cells = [] ∧ Grid.merge s e f g = (.error .valueError, g)) ∨
           (∃ first rest, enclosed ⟨a, b⟩ g.cells = first :: rest ∧
            ((∃ err, Grid.mergeLoop f { first with box := ⟨a, b⟩ } rest = .error err ∧
                Grid.merge s e f g = (.error err, g)) ∨
             (∃ new, Grid.mergeLoop f { first with box := ⟨a, b⟩ } rest = .ok new ∧
                Grid.merge s e f g = (.ok new,
                  ⟨(notEnclosed ⟨a, b⟩ g.cells).insertIdx
                    (bisectLeft ((notEnclosed ⟨a, b⟩ g.cells).map (·.box)) ⟨a, a⟩) new⟩)))))))))) := by
  have terr : ∀ v er, Coord.fromValue v = .error er → er = .typeError := by
    intro v er hv; unfold Coord.fromValue at hv; split at hv <;> cases hv; rfl
  cases hs : Coord.fromValue s with
  | error er =>
    have := terr s er hs; subst this
    exact .inl ⟨.inl rfl, by simp [Grid.merge, bind_run, hs]⟩
  | ok a =>
    cases he : Coord.fromValue e with
    | error er =>
      have := terr e er he; subst this
      exact .inl ⟨.inr rfl, by simp [Grid.merge, bind_run, hs, he]⟩
    | ok b =>
      refine .inr ⟨a, b, rfl, rfl, ?_⟩
      have hnew : Box.new [.coord a, .coord b] = Box.make a.x a.y b.x b.y := rfl
      by_cases hval : (⟨a, b⟩ : Box).Valid
      · refine .inr ⟨hval, ?_⟩
        have hmake : Box.make a.x a.y b.x b.y = .ok (⟨a, b⟩ : Box) := make_eq_ok hval
        rw [hmake] at hnew
        have hbox : Box.new [.coord a] = .ok ⟨a, a⟩ :=
          box_new_coord a (by simp only [Box.Valid] at hval; omega)
        rcases classify_cases ⟨a, b⟩ g.cells with ⟨hcl, hno⟩ | ⟨hcl, hex⟩
        · refine .inr ⟨hno, ?_⟩
          simp only [Grid.merge, bind_run, hs, he, hnew, lift_run, get_run, hcl]
          change (enclosed ⟨a, b⟩ g.cells = [] ∧ _) ∨ _
          cases hm : enclosed ⟨a, b⟩ g.cells with
          | nil =>
            left
            unfold enclosed at hm
            simp only [hm]
            exact ⟨trivial, rfl⟩
          | cons first rest =>
            right
            refine ⟨first, rest, rfl, ?_⟩
            unfold enclosed at hm
            simp only [hm]
            have ht : first.transform (some a) (some (⟨a, b⟩ : Box).size) = .ok { first with box := ⟨a, b⟩ } :=
              transform_to first _ hval
            simp only [bind_run, lift_run, ht]
            cases hl : Grid.mergeLoop f { first with box := ⟨a, b⟩ } rest with
            | error er => left; exact ⟨er, rfl, rfl⟩
            | ok new =>
              right
              refine ⟨new, rfl, ?_⟩
              have hb := (mergeLoop_fields f rest _ _ hl).1
              simp only [set_run, hb, hbox]
              rfl
        · left
          refine ⟨hex, ?_⟩
          simp only [Grid.merge, bind_run, hs, he, hnew, lift_run, get_run, hcl]
      · left
        refine ⟨hval, ?_⟩
        have hmake : Box.make a.x a.y b.x b.y = .error .valueError := make_eq_error hval
        rw [hmake] at hnew
        simp only [Grid.merge, bind_run, hs, he, hnew, lift_run]

theorem merge_inv (s e : PyVal) (f : γ → γ → Except PyErr γ) (g : Grid γ) (hinv : g.Inv) :
    (Grid.merge s e f g).2.Inv := by
  rcases merge_cases s e f g with ⟨_, h⟩ | ⟨a, b, _, _, ⟨_, h⟩ | ⟨hval, ⟨_, h⟩ | ⟨hno, ⟨_, h⟩ |
    ⟨first, rest, hm, ⟨_, _, h⟩ | ⟨new, hl, h⟩⟩⟩⟩⟩
  all_goals rw [h]
  any_goals exact hinv
  have hbox : new.box = ⟨a, b⟩ := (mergeLoop_fields f rest _ _ hl).1
  have hsub : Grid.Inv (⟨notEnclosed ⟨a, b⟩ g.cells⟩ : Grid γ) := inv_sublist List.filter_sublist hinv
  have hno' : ∀ c ∈ notEnclosed ⟨a, b⟩ g.cells, c.box.intersect new.box = false := by
    intro c hc
    rw [hbox]
    simp only [notEnclosed, List.mem_filter, Bool.not_eq_true'] at hc
    exact hno c hc.1 hc.2
  obtain ⟨l1, l2, e1, e2, h1, h2⟩ := insert_split _ new hsub.valid hsub.sorted hno'
  rw [hbox] at e2
  simp only [e2]
  refine inv_insert l1 l2 _ (by rw [hbox]; exact hval) ?_ ?_ h1 h2
  · rw [← e1]; exact hsub
  · rw [← e1]; exact hno'

theorem expand_run (v : PyVal) (w h : Int) (f : γ → γ → Except PyErr γ) (g : Grid γ) :
    Grid.expand v w h f g = match g.getItem v with
      | .error e => (.error e, g)
      | .ok cell => Grid.merge (.coord cell.box.min) (.coord (cell.box.max.addSize ⟨w, h⟩)) f g := by
  unfold Grid.expand
  simp only [bind_run, get_run, lift_run]
  cases g.getItem v <;> rfl

theorem expand_inv (v : PyVal) (w h : Int) (f : γ → γ → Except PyErr γ) (g : Grid γ) (hinv : g.Inv) :
    (Grid.expand v w h f g).2.Inv := by
  rw [expand_run]
  split
  · exact hinv
  · exact merge_inv _ _ _ _ hinv

theorem op_inv (op : Grid.Op γ) (g : Grid γ) (hinv : g.Inv) : (exec op.run g).Inv := by
  cases op with
  | set v a =>
    simp only [exec, Grid.Op.run, bind_run, lift_run]
    cases ha : a.build with
    | error e => exact hinv
    | ok c => exact setItem_inv v c (cell_new_valid ha).1 g hinv
  | del v => exact delItem_inv v g hinv
  | merge s e f =>
    simp only [exec, Grid.Op.run, bind_run]
    have := merge_inv s e f g hinv
    split <;> (rename_i heq; rw [heq] at this; exact this)
  | expand v w h f =>
    simp only [exec, Grid.Op.run, bind_run]
    have := expand_inv v w h f g hinv
    split <;> (rename_i heq; rw [heq] at this; exact this)

theorem runFrom_inv (ops : List (Grid.Op γ)) : ∀ (g : Grid γ), g.Inv → (Grid.runFrom g ops).Inv := by
  induction ops with
  | nil => intro g h; exact h
  | cons op ops ih => intro g h; exact ih _ (op_inv op g h)

theorem run_inv (ops : List (Grid.Op γ)) : (Grid.run ops).Inv := runFrom_inv ops _ Grid.empty_inv

end Benker
