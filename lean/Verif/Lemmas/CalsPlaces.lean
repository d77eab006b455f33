import Verif.Lemmas.CalsRagged

/-! A place for each entry of a CALS table (C109). -/

namespace Benker
open CalsSpec

variable {ns : Option String} {size : Node → Nat × Nat}

/-- the least natural number which satisfies a property -/
theorem least {p : Nat → Prop} : ∀ n, p n → ∃ m, p m ∧ ∀ k < m, ¬ p k := by
  intro n
  induction n using Nat.strongRecOn with
  | _ n ih =>
    intro hn
    by_cases h : ∃ k, k < n ∧ p k
    · obtain ⟨k, hk, hp⟩ := h
      exact ih k hk hp
    · exact ⟨n, hn, fun k hk hp => h ⟨k, hk, hp⟩⟩

/-- entries which are at their places, in the rows up to `y` -/
structure PlacedList (size : Node → Nat × Nat) (y : Nat) (E : List (Node × DocEntry)) : Prop where
  below : ∀ e ∈ E, e.2.box.min.y ≤ y
  valid : ∀ e ∈ E, 1 ≤ e.2.box.min.x
  sizes : ∀ e ∈ E, 1 ≤ (size e.2.node).1 ∧ 1 ≤ (size e.2.node).2 ∧ e.2.box.max.x = e.2.box.min.x + (size e.2.node).1 - 1 ∧
    e.2.box.max.y = e.2.box.min.y + (size e.2.node).2 - 1
  disjoint : E.Pairwise (fun a b => ¬ Overlap a.2.box b.2.box)
  leftmost : ∀ pre e post, E = pre ++ e :: post → ∀ x : Int, 1 ≤ x → x < e.2.box.min.x → ∃ a ∈ pre, InBox ⟨x, e.2.box.min.y⟩ a.2.box

theorem bound_x (E : List (Node × DocEntry)) : ∃ n : Nat, ∀ e ∈ E, e.2.box.max.x ≤ n := by
  induction E with
  | nil => exact ⟨0, by simp⟩
  | cons e l ih =>
    obtain ⟨n, h⟩ := ih
    refine ⟨n + e.2.box.max.x.toNat, ?_⟩
    intro a ha
    rcases List.mem_cons.mp ha with rfl | ha
    · omega
    · have := h a ha; omega

theorem placed_next {E : List (Node × DocEntry)} {y : Nat} (hE : PlacedList size y E) (b n : Node) (hw : 1 ≤ (size n).1) (hh : 1 ≤ (size n).2)
    (hno : (∃ a ∈ E, a.2.box.min.y < y ∧ (y : Int) ≤ a.2.box.max.y) → (size n).1 = 1) :
    ∃ box : Box, box.min.y = y ∧ PlacedList size y (E ++ [(b, ⟨n, box⟩)]) := by
  obtain ⟨N, hN⟩ := bound_x E
  obtain ⟨m, hm, hleast⟩ := least (p := fun k => ∀ a ∈ E, ¬ InBox ⟨(k : Int) + 1, y⟩ a.2.box) N (by
    intro a ha hin
    have := hN a ha
    simp only [InBox] at hin
    omega)
  refine ⟨⟨⟨(m : Int) + 1, y⟩, ⟨m + (size n).1, y + (size n).2 - 1⟩⟩, rfl, ?_⟩
  have hleft : ∀ x : Int, 1 ≤ x → x < (m : Int) + 1 → ∃ a ∈ E, InBox ⟨x, y⟩ a.2.box := by
    intro x h1 h2
    refine Classical.byContradiction fun hcon => hleast (x - 1).toNat (by omega) ?_
    intro a ha hin
    have e : (((x - 1).toNat : Nat) : Int) + 1 = x := by omega
    rw [e] at hin
    exact hcon ⟨a, ha, hin⟩
  have hcases : ∀ {P : Node × DocEntry → Prop} (_ : ∀ e ∈ E, P e) (_ : P (b, ⟨n, ⟨⟨(m : Int) + 1, y⟩, ⟨m + (size n).1, y + (size n).2 - 1⟩⟩⟩)),
      ∀ e ∈ E ++ [(b, (⟨n, ⟨⟨(m : Int) + 1, y⟩, ⟨m + (size n).1, y + (size n).2 - 1⟩⟩⟩ : DocEntry))], P e := by
    intro P h1 h2 e he
    rcases List.mem_append.mp he with h | h
    · exact h1 e h
    · simp only [List.mem_singleton] at h
      subst h; exact h2
  constructor
  · exact hcases hE.below (Int.le_refl _)
  · exact hcases hE.valid (by simp only; omega)
  · exact hcases hE.sizes ⟨hw, hh, show (m : Int) + ((size n).1 : Int) = (m : Int) + 1 + ((size n).1 : Int) - 1 by omega, rfl⟩
  · rw [List.pairwise_append]
    refine ⟨hE.disjoint, List.pairwise_singleton _ _, ?_⟩
    intro a ha c hc
    simp only [List.mem_singleton] at hc
    subst hc
    rintro ⟨p, h1, h2⟩
    have hb := hE.below a ha
    have hfree := hm a ha
    simp only [InBox] at h1 h2 hfree
    -- the entry is on the right of the place which was found, in this row
    have hx : (m : Int) + 1 < a.2.box.min.x := by omega
    by_cases hrow : a.2.box.min.y < y
    · have := hno ⟨a, ha, hrow, by omega⟩
      omega
    · obtain ⟨pre, post, hs⟩ := List.append_of_mem ha
      obtain ⟨a', ha', hin⟩ := hE.leftmost pre a post hs ((m : Int) + 1) (by omega) hx
      have hy : a.2.box.min.y = y := by omega
      rw [hy] at hin
      exact hm a' (by rw [hs]; simp [ha']) hin
  · intro pre e post hs x h1 h2
    rcases List.eq_nil_or_concat post with rfl | ⟨post', z, rfl⟩
    · have hs' : E ++ [(b, (⟨n, ⟨⟨(m : Int) + 1, y⟩, ⟨m + (size n).1, y + (size n).2 - 1⟩⟩⟩ : DocEntry))] = pre ++ [e] := hs
      obtain ⟨e1, e2⟩ := List.append_inj' hs' rfl
      simp only [List.cons.injEq, and_true] at e2
      subst e1 e2
      exact hleft x h1 h2
    · rw [List.concat_eq_append] at hs
      have hs' : E ++ [(b, (⟨n, ⟨⟨(m : Int) + 1, y⟩, ⟨m + (size n).1, y + (size n).2 - 1⟩⟩⟩ : DocEntry))] = (pre ++ e :: post') ++ [z] := by rw [hs]; simp
      obtain ⟨e1, _⟩ := List.append_inj' hs' rfl
      exact hE.leftmost pre e post' e1 x h1 h2

theorem placed_mono {E : List (Node × DocEntry)} {y y' : Nat} (hE : PlacedList size y E) (h : y ≤ y') : PlacedList size y' E :=
  ⟨fun e he => by have := hE.below e he; omega, hE.valid, hE.sizes, hE.disjoint, hE.leftmost⟩

/-- a place for the entries of a row -/
theorem placed_entries {y : Nat} (b : Node) : ∀ (es : List DocEntry) {E : List (Node × DocEntry)} (_ : PlacedList size y E)
    (_ : ∀ e ∈ es, 1 ≤ (size e.node).1 ∧ 1 ≤ (size e.node).2) (_ : (∃ a ∈ E, a.2.box.min.y < y ∧ (y : Int) ≤ a.2.box.max.y) → ∀ e ∈ es, (size e.node).1 = 1),
    ∃ es' : List DocEntry, es'.map (·.node) = es.map (·.node) ∧ (∀ e ∈ es', e.box.min.y = y) ∧ PlacedList size y (E ++ es'.map (fun e => (b, e)))
  | [], E, hE, _, _ => ⟨[], rfl, by simp, by simpa using hE⟩
  | e :: es, E, hE, hsz, hno => by
    obtain ⟨h1, h2⟩ := hsz e List.mem_cons_self
    obtain ⟨box, hy, hnext⟩ := placed_next hE b e.node h1 h2 (fun h => hno h e List.mem_cons_self)
    obtain ⟨es', h3, h4, h5⟩ := placed_entries b es hnext (fun e' he' => hsz e' (List.mem_cons_of_mem _ he')) (by
      rintro ⟨a, ha, h3, h4⟩ e' he'
      rcases List.mem_append.mp ha with ha | ha
      · exact hno ⟨a, ha, h3, h4⟩ e' (List.mem_cons_of_mem _ he')
      · simp only [List.mem_singleton] at ha
        subst ha
        simp only at h3
        omega)
    refine ⟨⟨e.node, box⟩ :: es', by simp [h3], ?_, by simpa [List.append_assoc] using h5⟩
    intro e' he'
    rcases List.mem_cons.mp he' with h | h
    · subst h; exact hy
    · exact h4 e' h

/-- rows with the same elements -/
def SameRows (rows rows' : List (Node × DocRow)) : Prop :=
  rows'.map (fun r => (r.1, r.2.node, r.2.entries.map (·.node))) = rows.map (fun r => (r.1, r.2.node, r.2.entries.map (·.node)))

theorem mem_nodes {es es' : List DocEntry} (h : es'.map (·.node) = es.map (·.node)) {e : DocEntry} (he : e ∈ es') : ∃ a ∈ es, a.node = e.node := by
  have : e.node ∈ es'.map (·.node) := List.mem_map_of_mem he
  rw [h] at this
  exact List.mem_map.mp this

/-- a place for the entries of the rows, one row after the other -/
theorem placed_rows (all : List (Node × DocRow)) (hsz : ∀ r ∈ all, ∀ e ∈ r.2.entries, 1 ≤ (size e.node).1 ∧ 1 ≤ (size e.node).2)
    (hno : ∀ i j r q, all[i]? = some r → all[j]? = some q → i < j → (∃ a ∈ r.2.entries, j < i + (size a.node).2) → ∀ b ∈ q.2.entries, (size b.node).1 = 1) :
    ∀ (k : Nat), k ≤ all.length → ∃ rows', SameRows (all.take k) rows' ∧
      (∀ (i : Nat) (r : Node × DocRow), rows'[i]? = some r → ∀ e ∈ r.2.entries, e.box.min.y = (i : Int) + 1) ∧ PlacedList size k (entriesOf rows')
  | 0, _ => ⟨[], by simp [SameRows], by simp, ⟨by simp [entriesOf], by simp [entriesOf], by simp [entriesOf], by simp [entriesOf], by simp [entriesOf]⟩⟩
  | k + 1, hk => by
    obtain ⟨rows', h1, h2, h3⟩ := placed_rows all hsz hno k (by omega)
    have hget : all[k]? = some all[k] := List.getElem?_eq_getElem (by omega)
    have hlen : rows'.length = k := by
      have := congrArg List.length h1
      simpa [Nat.min_eq_left (show k ≤ all.length by omega)] using this
    have hrow : ∀ (i : Nat) (r' : Node × DocRow), rows'[i]? = some r' → ∃ r, all[i]? = some r ∧ r'.2.entries.map (·.node) = r.2.entries.map (·.node) := by
      intro i r' hi
      have hlt : i < k := by have := (List.getElem?_eq_some_iff.mp hi).1; omega
      have := congrArg (fun l => l[i]?) h1
      simp only [List.getElem?_map, hi, Option.map_some, List.getElem?_take, if_pos hlt] at this
      rw [List.getElem?_eq_getElem (by omega : i < all.length)] at this ⊢
      simp only [Option.map_some, Option.some.injEq, Prod.mk.injEq] at this
      exact ⟨_, rfl, this.2.2⟩
    obtain ⟨es', h4, h5, h6⟩ := placed_entries (size := size) (y := k + 1) all[k].1 all[k].2.entries (placed_mono h3 (by omega))
      (hsz _ (List.getElem_mem _)) (by
        rintro ⟨a, ha, h4, h5⟩
        obtain ⟨r', hr', ha⟩ := List.mem_flatMap.mp ha
        obtain ⟨e, he, rfl⟩ := List.mem_map.mp ha
        obtain ⟨i, hi⟩ := List.getElem?_of_mem hr'
        obtain ⟨r, hr, hn⟩ := hrow i r' hi
        obtain ⟨e0, he0, hen⟩ := mem_nodes hn he
        have hy := h2 i r' hi e he
        have hs := (h3.sizes (r'.1, e) (List.mem_flatMap.mpr ⟨r', hr', List.mem_map_of_mem he⟩)).2.2.2
        have hlt : i < k := by have := (List.getElem?_eq_some_iff.mp hi).1; omega
        simp only at h4 h5 hs
        exact hno i k r all[k] hr hget hlt ⟨e0, he0, by rw [hen]; omega⟩)
    refine ⟨rows' ++ [(all[k].1, ⟨all[k].2.node, es'⟩)], ?_, ?_, ?_⟩
    · unfold SameRows at h1 ⊢
      rw [List.take_add_one, hget, List.map_append, List.map_append, h1]
      simp [h4]
    · intro i r hi e he
      by_cases hlt : i < k
      · rw [List.getElem?_append_left (by omega)] at hi
        exact h2 i r hi e he
      · rw [List.getElem?_append_right (by omega), hlen] at hi
        have hik : i = k := by
          have := (List.getElem?_eq_some_iff.mp hi).1
          simp at this; omega
        subst hik
        simp only [Nat.sub_self, List.getElem?_cons_zero, Option.some.injEq] at hi
        subst hi
        have := h5 e he
        omega
    · have : entriesOf (rows' ++ [(all[k].1, ⟨all[k].2.node, es'⟩)]) = entriesOf rows' ++ es'.map (fun e => (all[k].1, e)) := by simp [entriesOf]
      rw [this]
      exact h6

/-- the bodies of a document whose rows are given -/
theorem bodies_of_rows : ∀ (bs : List DocBody) (rows' : List (Node × DocRow)), SameRows (bs.flatMap (fun b => b.rows.map (fun r => (b.node, r)))) rows' →
    ∃ bs' : List DocBody, bs'.flatMap (fun b => b.rows.map (fun r => (b.node, r))) = rows' ∧
      bs'.map (fun b => (b.node, b.rows.map (fun r => (r.node, r.entries.map (·.node))))) =
        bs.map (fun b => (b.node, b.rows.map (fun r => (r.node, r.entries.map (·.node)))))
  | [], rows', h => by
    unfold SameRows at h
    simp only [List.flatMap_nil, List.map_nil, List.map_eq_nil_iff] at h
    subst h
    exact ⟨[], rfl, rfl⟩
  | b :: bs, rows', h => by
    unfold SameRows at h
    rw [List.flatMap_cons, List.map_append] at h
    obtain ⟨r1, r2, rfl, e1, e2⟩ := List.map_eq_append_iff.mp h
    obtain ⟨bs', h1, h2⟩ := bodies_of_rows bs r2 e2
    have hfst : ∀ r ∈ r1, r.1 = b.node := by
      intro r hr
      have : (r.1, r.2.node, r.2.entries.map (·.node)) ∈ List.map (fun r : Node × DocRow => (r.1, r.2.node, r.2.entries.map (·.node))) r1 :=
        List.mem_map_of_mem (f := fun r : Node × DocRow => (r.1, r.2.node, r.2.entries.map (·.node))) hr
      rw [e1] at this
      obtain ⟨q, hq, hqe⟩ := List.mem_map.mp this
      obtain ⟨q', _, rfl⟩ := List.mem_map.mp hq
      exact (congrArg Prod.fst hqe).symm
    refine ⟨⟨b.node, r1.map (·.2)⟩ :: bs', ?_, ?_⟩
    · rw [List.flatMap_cons, h1]
      congr 1
      simp only [List.map_map]
      conv => rhs; rw [← List.map_id r1]
      refine List.map_congr_left fun r hr => ?_
      show (b.node, r.2) = r
      rw [← hfst r hr]
    · rw [List.map_cons, List.map_cons, h2]
      congr 1
      simp only [Prod.mk.injEq, true_and, List.map_map]
      have := congrArg (List.map Prod.snd) e1
      simpa [List.map_map, Function.comp_def] using this

end Benker
