import Verif.Spec.Cals
import Verif.Lemmas.Except
import Verif.Lemmas.Dict
import Verif.Props.Xml

/-! Facts about the CALS builder. -/

namespace Benker.Cals
open Benker

/-! ### sorting and grouping -/

theorem insertBy_perm (key : α → Int) (a : α) (l : List α) : (insertBy key a l).Perm (a :: l) := by
  induction l with
  | nil => exact .refl _
  | cons b l ih =>
    unfold insertBy
    split
    · exact .refl _
    · exact (List.Perm.cons b ih).trans (List.Perm.swap a b l)

theorem sortedBy_perm (key : α → Int) (l : List α) : (sortedBy key l).Perm l := by
  induction l with
  | nil => exact .refl _
  | cons a l ih => exact (insertBy_perm key a _).trans (List.Perm.cons a ih)

theorem insertBy_sorted (key : α → Int) (a : α) (l : List α) (h : l.Pairwise (fun x y => key x ≤ key y)) :
    (insertBy key a l).Pairwise (fun x y => key x ≤ key y) := by
  induction l with
  | nil => simp [insertBy]
  | cons b l ih =>
    unfold insertBy
    split
    · rename_i hab
      rw [List.pairwise_cons]
      refine ⟨?_, h⟩
      intro x hx
      rcases List.mem_cons.mp hx with rfl | hx
      · exact hab
      · have := (List.pairwise_cons.mp h).1 x hx; omega
    · rename_i hab
      rw [List.pairwise_cons]
      refine ⟨?_, ih (List.pairwise_cons.mp h).2⟩
      intro x hx
      rcases List.mem_cons.mp ((insertBy_perm key a l).mem_iff.mp hx) with rfl | hx
      · omega
      · exact (List.pairwise_cons.mp h).1 x hx

theorem sortedBy_sorted (key : α → Int) (l : List α) : (sortedBy key l).Pairwise (fun x y => key x ≤ key y) := by
  induction l with
  | nil => simp [sortedBy]
  | cons a l ih => exact insertBy_sorted key a _ ih

theorem insertBy_filter (key : α → Int) (a : α) (l : List α) (k : Int) :
    (insertBy key a l).filter (fun x => key x = k) = (a :: l).filter (fun x => key x = k) := by
  induction l with
  | nil => rfl
  | cons b l ih =>
    unfold insertBy
    split
    · rfl
    · rename_i hab
      rw [List.filter_cons, ih, List.filter_cons (x := a), List.filter_cons (x := a), List.filter_cons (x := b)]
      by_cases h1 : key b = k
      · have : ¬ key a = k := by omega
        simp [h1, this]
      · simp [h1]

/-- the sort is stable -/
theorem sortedBy_filter (key : α → Int) (l : List α) (k : Int) :
    (sortedBy key l).filter (fun x => key x = k) = l.filter (fun x => key x = k) := by
  induction l with
  | nil => rfl
  | cons a l ih =>
    unfold sortedBy
    rw [insertBy_filter, List.filter_cons, ih, List.filter_cons (xs := l)]

theorem sortedBy_of_sorted (key : α → Int) (l : List α) (h : l.Pairwise (fun x y => key x ≤ key y)) : sortedBy key l = l := by
  induction l with
  | nil => rfl
  | cons a l ih =>
    unfold sortedBy
    rw [ih (List.pairwise_cons.mp h).2]
    cases l with
    | nil => rfl
    | cons b l =>
      have := (List.pairwise_cons.mp h).1 b (by simp)
      simp [insertBy, this]

theorem groupBy_flatten [DecidableEq κ] (key : α → κ) (l : List α) : (groupBy key l).flatten = l := by
  induction l with
  | nil => rfl
  | cons x l ih =>
    unfold groupBy
    cases hg : groupBy key l with
    | nil => rw [hg] at ih; simp at ih; simp [← ih]
    | cons g rest =>
      cases g with
      | nil => rw [hg] at ih; simp at ih; simp [← ih]
      | cons y ys =>
        rw [hg] at ih
        simp only
        split <;> simp [← ih]

theorem groupBy_const [DecidableEq κ] (key : α → κ) (l : List α) : ∀ g ∈ groupBy key l, g ≠ [] ∧ ∀ x ∈ g, ∀ y ∈ g, key x = key y := by
  induction l with
  | nil => simp [groupBy]
  | cons x l ih =>
    unfold groupBy
    cases hg : groupBy key l with
    | nil => intro g h; simp at h; subst h; simp
    | cons g0 rest =>
      rw [hg] at ih
      have h0 := ih g0 (by simp)
      cases g0 with
      | nil => exact absurd rfl h0.1
      | cons y ys =>
        simp only
        split
        · rename_i hk
          intro g h
          rcases List.mem_cons.mp h with rfl | h
          · refine ⟨by simp, ?_⟩
            have key' : ∀ z ∈ x :: y :: ys, key z = key y := by
              intro z hz
              rcases List.mem_cons.mp hz with rfl | hz
              · exact hk
              · exact h0.2 z hz y (by simp)
            intro a ha b hb
            rw [key' a ha, key' b hb]
          · exact ih g (by simp [h])
        · intro g h
          rcases List.mem_cons.mp h with rfl | h
          · simp
          · exact ih g h

/-! ### attributes -/

theorem q_ne (cfg : Config) {a b : String} (h : a ≠ b) : cfg.q a ≠ cfg.q b := by
  unfold Config.q; intro e; cases e; exact h rfl

theorem addAttr_ok {cfg : Config} {styles : Styles} {key name : String} {f : StyleVal → Except PyErr String} {a b : Dict QName String}
    (h : addAttr cfg styles key name f a = .ok b) (name' : String) :
    (name' ≠ name → Dict.get? b (cfg.q name') = Dict.get? a (cfg.q name')) ∧
    (Dict.get? styles key = none → b = a) ∧
    (∀ v, Dict.get? styles key = some v → ∃ s, f v = .ok s ∧ Dict.get? b (cfg.q name) = some s) := by
  unfold addAttr at h
  cases hg : Dict.get? styles key with
  | none => rw [hg] at h; cases h; exact ⟨fun _ => rfl, fun _ => rfl, by simp⟩
  | some v =>
    rw [hg] at h
    simp only at h
    cases hf : f v with
    | error e => rw [hf] at h; cases h
    | ok s =>
      rw [hf] at h; cases h
      refine ⟨fun hn => ?_, by simp, ?_⟩
      · rw [Dict.get?_set, if_neg (q_ne cfg (Ne.symm hn))]
      · intro v' hv'; cases hv'
        exact ⟨s, hf, by rw [Dict.get?_set, if_pos rfl]⟩

theorem addSep_ok {cfg : Config} {styles : Styles} {key name d : String} {a b : Dict QName String}
    (h : addSep cfg styles key name d a = .ok b) (name' : String) :
    (name' ≠ name → Dict.get? b (cfg.q name') = Dict.get? a (cfg.q name')) ∧
    ∃ sep, getSepAttr styles key = .ok sep ∧
      ((sep = none ∨ sep = some d) → b = a) ∧ (∀ s, sep = some s → s ≠ d → Dict.get? b (cfg.q name) = some s) := by
  unfold addSep at h
  cases hs : getSepAttr styles key with
  | error e => rw [hs] at h; cases h
  | ok sep =>
    rw [hs] at h
    cases sep with
    | none => cases h; exact ⟨fun _ => rfl, none, rfl, fun _ => rfl, by simp⟩
    | some s =>
      cases h
      refine ⟨fun hn => ?_, some s, rfl, ?_, ?_⟩
      · split
        · rw [Dict.get?_set, if_neg (q_ne cfg (Ne.symm hn))]
        · rfl
      · rintro (h | h)
        · cases h
        · cases h; simp
      · intro s' e hd; cases e
        rw [if_pos hd, Dict.get?_set, if_pos rfl]

end Benker.Cals
