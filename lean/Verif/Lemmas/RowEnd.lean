import Verif.Lemmas.RowFill
import Verif.Props.Drawing

/-! The end of a row which is filled up to some column: it is completed with empty cells. -/

namespace Benker
open PyM Table
variable {δ : Type}

/-- filling the first free place of the row is the same as inserting a cell in the row -/
theorem RowFill.fillOne {W r : Nat} {c : Int} {nat : Option String} {t : Table δ} (ht : RowFill W r c nat t) (hr : 1 ≤ r) (hc : 0 ≤ c) (content : Option δ) (st : Option Styles) :
    Table.fillOne content st nat ⟨c + 1, r⟩ t = insertCell .row r content st none 1 1 t := by
  obtain ⟨k, hff, he⟩ := insertCell_eq ht.inv .row r (by omega) content st none 1 1
  have hff' : FirstFree .row r t.grid.cells (c + 1) := by
    refine ⟨by omega, ?_, ?_⟩
    · rw [ht.covered]; simp only [Axis.coord]; omega
    · intro j h1 h2
      rw [ht.covered]; exact .inr ⟨rfl, by show (1 : Int) ≤ r; omega, h1, by show j ≤ c; omega⟩
  have hk := firstFree_unique hff hff'
  subst hk
  have hbase := ht.started hr
  have hlen := ht.rows
  have hvt : exec (viewAt .row (r : Int)) t = t := by
    unfold exec; rw [viewAt_run ht.inv, grow_noop _ _ (by omega)]
    exact setViews_self .row _ t hbase
  have hvn : viewNature t .row r = nat := by
    unfold viewNature eval
    rw [viewAt_run ht.inv, grow_noop _ _ (by omega)]
    rw [pyGet_pos _ _ (by omega) (by omega)]
    have := ht.nature (r - 1) (by omega)
    have e : ((r : Int) - 1).toNat = r - 1 := by omega
    rw [List.getElem?_eq_getElem (by omega)] at this
    simp only [Option.map_some, Option.some.injEq] at this
    simp only [e]
    exact this
  rw [hvt, hvn] at he
  rw [he, Table.fillOne_run, if_neg]
  · simp only [Option.none_or, Axis.coord]
    cases hn : Cell.new content st nat (c + 1) (r : Int) with
    | error e => rfl
    | ok cell =>
      have hmin : cell.min = ⟨c + 1, r⟩ := by
        rw [cell_new_ok _ _ _ (by omega)] at hn
        cases hn; rfl
      simp only [hmin]
      rfl
  · intro h
    have := (ht.covered _).mp ((hasCoord_grid _ _).mp h)
    simp only at this
    omega

/-- the end of the row, from the column after `c` -/
theorem RowFill.fillFrom {W r : Nat} {nat : Option String} (hr : 1 ≤ r) : ∀ (n : Nat) (a c : Int) (t : Table δ), ((W : Int) + 1 - a).toNat = n → 1 ≤ a → a ≤ c + 1 → 0 ≤ c → c ≤ W →
    RowFill W r c nat t →
    ∃ t', forEach (Table.fillOne (none : Option δ) none nat) ((pyRange a ((W : Int) + 1)).map (fun x => ⟨x, (r : Int)⟩)) t = (.ok (), t') ∧ RowFill W r W nat t' ∧
      t'.styles = t.styles ∧ t'.nature = t.nature ∧ KeepLooks t t' ∧
      t'.grid.cells = t.grid.cells ++ (List.range (W - c.toNat)).map (fun (k : Nat) => ⟨none, [], nat, ⟨⟨c + k + 1, r⟩, ⟨c + k + 1, r⟩⟩⟩) := by
  intro n
  induction n with
  | zero =>
    intro a c t hn ha hac hc hcW ht
    have hce : c = W := by omega
    subst hce
    have : pyRange a ((W : Int) + 1) = [] := List.eq_nil_of_length_eq_zero (by rw [length_pyRange]; omega)
    rw [this]
    refine ⟨t, rfl, ht, rfl, rfl, fun ax vs i v h1 h2 => ⟨vs, v, h1, h2, rfl, rfl⟩, ?_⟩
    have : W - ((W : Int)).toNat = 0 := by omega
    rw [this]; simp
  | succ n ih =>
    intro a c t hn ha hac hc hcW ht
    have hcons : pyRange a ((W : Int) + 1) = a :: pyRange (a + 1) ((W : Int) + 1) := pyRange_cons _ _ (by omega)
    have hstep : forEach (Table.fillOne (none : Option δ) none nat) ((pyRange a ((W : Int) + 1)).map (fun x => (⟨x, (r : Int)⟩ : Coord))) t =
        ((Table.fillOne none none nat ⟨a, (r : Int)⟩ >>= fun _ => forEach (Table.fillOne none none nat) ((pyRange (a + 1) ((W : Int) + 1)).map (fun x => ⟨x, (r : Int)⟩))) t) := by
      rw [hcons]; rfl
    rw [hstep, bind_run]
    by_cases hle : a ≤ c
    · rw [Table.fillOne_run, if_pos ((hasCoord_grid _ _).mpr ((ht.covered _).mpr (.inr ⟨rfl, by show (1 : Int) ≤ r; omega, ha, hle⟩)))]
      exact ih (a + 1) c t (by omega) (by omega) (by omega) hc hcW ht
    · have hae : a = c + 1 := by omega
      subst hae
      rw [ht.fillOne hr hc]
      obtain ⟨t1, e1, f1, s1, n1, k1, c1⟩ := ht.insert hr hc 1 (by omega) (by omega) none none
      rw [e1]
      obtain ⟨t2, e2, f2, s2, n2, k2, c2⟩ := ih (c + 1 + 1) (c + 1) t1 (by omega) (by omega) (by omega) (by omega) (by omega) f1
      refine ⟨t2, e2, f2, s2.trans s1, n2.trans n1, k1.trans k2, ?_⟩
      rw [c2, c1, List.append_assoc]
      congr 1
      have e : W - c.toNat = (W - (c + 1).toNat) + 1 := by omega
      rw [e, List.range_succ_eq_map, List.map_cons, List.map_map]
      simp only [List.cons_append, List.nil_append, Option.getD_none]
      congr 1
      · simp only [Int.natCast_zero, Int.add_zero]
      · refine List.map_congr_left ?_
        intro k _
        simp only [Function.comp_apply, Nat.succ_eq_add_one, Int.natCast_add, Int.natCast_one]
        have e : c + 1 + (k : Int) + 1 = c + ((k : Int) + 1) + 1 := by omega
        rw [e]

/-- the columns are known as soon as a row is finished -/
theorem RowFill.colsKnown {W r : Nat} {c : Int} {nat : Option String} {t : Table δ} (ht : RowFill W r c nat t) (hW : 1 ≤ W) (h : 2 ≤ r ∨ 1 ≤ r ∧ c = W ∨ W ≤ (t.baseViews .col).length) :
    (t.baseViews .col).length = W := by
  have h1 := ht.cols
  have hd := base_describes ht.inv .col
  have key : ∀ y : Int, Covered t.grid.cells ⟨W, y⟩ → (t.baseViews .col).length = W := by
    rintro y ⟨e, he, hp⟩
    have := hd.enough e he
    unfold lastLine at this
    simp only [Cell.max, InBox] at this hp
    omega
  rcases h with h | ⟨h, rfl⟩ | h
  · exact key 1 ((ht.covered _).mpr (.inl ⟨by show (1 : Int) ≤ W; omega, Int.le_refl _, Int.le_refl _, by show (1 : Int) < r; omega⟩))
  · exact key r ((ht.covered _).mpr (.inr ⟨rfl, by show (1 : Int) ≤ r; omega, by show (1 : Int) ≤ W; omega, Int.le_refl _⟩))
  · omega

end Benker
