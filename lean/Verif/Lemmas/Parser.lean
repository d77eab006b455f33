import Verif.Model.CalsParser
import Verif.Props.Table

/-! Invariants of statements, and tables handled by the parsers. -/

namespace Benker
open PyM

/-- the statement keeps the invariant, whether it succeeds or raises -/
def Keeps {σ α : Type} (P : σ → Prop) (m : PyM σ α) : Prop := ∀ s, P s → P (m s).2

section
variable {σ α β : Type} {P : σ → Prop}

theorem keeps_pure (a : α) : Keeps P (pure a : PyM σ α) := fun _ h => h
theorem keeps_raise (e : PyErr) : Keeps P (raise e : PyM σ α) := fun _ h => h
theorem keeps_lift (e : Except PyErr α) : Keeps P (lift e : PyM σ α) := fun _ h => h
theorem keeps_get : Keeps P (PyM.get : PyM σ σ) := fun _ h => h
theorem keeps_modify {f : σ → σ} (hf : ∀ s, P s → P (f s)) : Keeps P (PyM.modify f) := hf

theorem keeps_bind {m : PyM σ α} {f : α → PyM σ β} (hm : Keeps P m) (hf : ∀ a, Keeps P (f a)) : Keeps P (m >>= f) := by
  intro s hs
  have := hm s hs
  rw [bind_run]
  cases hr : m s with
  | mk r s' =>
    rw [hr] at this
    cases r with
    | error e => exact this
    | ok a => exact hf a s' this
end

/-- what is known of the table of a parser -/
def PState.TableIs (Q : Table Content → Prop) (s : PState) : Prop := ∀ t, s.table = some t → Q t

theorem keeps_onTable {α : Type} {Q : Table Content → Prop} {m : PyM (Table Content) α} (hm : Keeps Q m) :
    Keeps (PState.TableIs Q) (PState.onTable m) := by
  intro s hs
  unfold PState.onTable
  cases ht : s.table with
  | none => exact hs
  | some t =>
    intro t' ht'
    cases ht'
    exact hm t (hs t ht)

theorem keeps_theRow {P : PState → Prop} : Keeps P PState.theRow := by
  intro s hs
  unfold PState.theRow
  split <;> exact hs

theorem keeps_nextCol {Q : Table Content → Prop} : Keeps (PState.TableIs Q) PState.nextCol := fun _ h => h
theorem keeps_nextRow {Q : Table Content → Prop} : Keeps (PState.TableIs Q) PState.nextRow := fun _ h => h

/-! ### reachable tables -/

section
variable {γ : Type}

theorem keeps_op (op : Table.Op γ) : Keeps Table.Reachable op.run := fun _ ht => ht.step op

/-- the position reached by an index does not depend on what is done there -/
theorem updateAt_index (i : Int) (n : Nat) :
    (∃ j, j < n ∧ ∀ (f : View γ → View γ) (vs : List (View γ)), vs.length = n → Views.updateAt i f vs = (.ok (), vs.modify j f)) ∨
    (∀ (f : View γ → View γ) (vs : List (View γ)), vs.length = n → Views.updateAt i f vs = (.error .indexError, vs)) := by
  by_cases h0 : 0 ≤ i
  · by_cases h1 : i.toNat < n
    · refine .inl ⟨i.toNat, h1, ?_⟩
      intro f vs hl
      unfold Views.updateAt; rw [if_pos h0, if_pos (by omega)]
    · refine .inr ?_
      intro f vs hl
      unfold Views.updateAt; rw [if_pos h0, if_neg (by omega)]
  · by_cases h1 : 0 ≤ (n : Int) + i
    · refine .inl ⟨((n : Int) + i).toNat, by omega, ?_⟩
      intro f vs hl
      unfold Views.updateAt; rw [if_neg h0, hl, if_pos h1]
    · refine .inr ?_
      intro f vs hl
      unfold Views.updateAt; rw [if_neg h0, hl, if_neg h1]

/-- changing the styles and the nature of a view amounts to assigning them -/
theorem keeps_editView (ax : Axis) (pos : Int) (f : View γ → View γ) (hf : Table.LooksOnly f) :
    Keeps Table.Reachable (Table.editView ax pos f : PyM (Table γ) Unit) := by
  intro t ht
  have h := ht.inv
  have run : ∀ {t : Table γ}, t.Inv → ∀ g, (Table.editView ax pos g t).2 =
      t.setViews ax (Views.updateAt (pos - 1) g (Views.grow pos (t.baseViews ax))).2 := by
    intro t h g; rw [Table.editView_run h]
  rcases updateAt_index (γ := γ) (pos - 1) (Views.grow pos (t.baseViews ax)).length with ⟨j, hj, hu⟩ | hu
  · obtain ⟨w, hw⟩ : ∃ w, (Views.grow pos (t.baseViews ax))[j] = w := ⟨_, rfl⟩
    have r1 := ht.step (.setNature ax pos (f w).nature)
    have r2 := r1.step (.setStyles ax pos (some (f w).styles))
    suffices hs : (Table.editView ax pos f t).2 = _ from hs ▸ r2
    simp only [exec, Table.Op.run] at r1 ⊢
    have hl : ((Views.grow pos (t.baseViews ax)).modify j
        (fun v => { v with nature := (f w).nature })).length =
        (Views.grow pos (t.baseViews ax)).length := by simp
    have hgl := grow_length pos (t.baseViews ax)
    rw [run r1.inv, run h, hu _ _ rfl, run h, hu _ _ rfl]
    simp only [Table.baseViews_setViews, Table.setViews_setViews]
    rw [grow_noop pos (List.modify _ _ _) (by rw [hl]; omega), hu _ _ hl]
    congr 1
    apply List.ext_getElem
    · simp
    · intro i h1 h2
      simp only [List.getElem_modify]
      by_cases e : j = i
      · subst e
        simp only [if_true, hw]
        have := hf w
        generalize f w = v at this ⊢
        cases v
        simp only at this
        obtain ⟨a, b, c⟩ := this
        subst a b c
        rfl
      · simp only [e, if_false]
  · have r := ht.step (.setNature ax pos none)
    suffices hs : (Table.editView ax pos f t).2 = _ from hs ▸ r
    simp only [exec, Table.Op.run]
    rw [run h, run h, hu _ _ rfl, hu _ _ rfl]

theorem keeps_views (ax : Axis) : Keeps Table.Reachable (Table.views ax : PyM (Table γ) _) := by
  intro t ht
  have := ht.step (.access ax)
  simp only [exec, Table.Op.run, bind_run] at this
  rw [Table.views_run ax t ht.inv.grid] at this ⊢
  exact this

theorem keeps_fillMissing (b : Box) (c : Option γ) (s : Option Styles) (n : Option String) :
    Keeps Table.Reachable (Table.fillMissing b c s n) := keeps_op (.fill b c s n)

theorem keeps_insertCell (ax : Axis) (pos : Int) (c : Option γ) (s : Option Styles) (n : Option String) (w h : Int) :
    Keeps Table.Reachable (Table.insertCell ax pos c s n w h) := keeps_op (.insert ax pos c s n w h)

theorem new_reachable {st : Option Styles} {n : Option String} {t : Table γ} (h : Table.new [] st n = .ok t) : t.Reachable :=
  ⟨[], st, n, t, [], by simp, h, rfl⟩

end
end Benker
