import Verif.Spec.WordKept
import Verif.Lemmas.FormexKept
import Verif.Props.OoxmlLooks

/-! What the borders read from Word become, when they are written as separators. -/

namespace Benker.Kept
open PyM Cals CalsSpec FmxSpec OoxmlSpec Ooxml

/-- the text `v` of a border draws the line `o` -/
def Draws (v : Option StyleVal) (o : Option Bool) : Prop :=
  (v = none ∧ o = none) ∨ ∃ s w, v = some (.str s) ∧ (∀ st key, Dict.get? st key = some (.str s) → BorderIs st key (some w)) ∧ w ≠ [] ∧
    o = some (decide (w ≠ noneText))

theorem Draws.or {v v' : Option StyleVal} {o o' : Option Bool} (h : Draws v o) (h' : Draws v' o') : Draws (v.or v') (o.or o') := by
  rcases h with ⟨rfl, rfl⟩ | ⟨s, w, rfl, h1, h2, rfl⟩
  · simpa using h'
  · exact .inr ⟨s, w, rfl, h1, h2, rfl⟩

theorem Draws.first {α : Type} {f : α → Option Bool} {own : List Styles} {chain : List α} {key : String}
    (h : All₂ (fun s o => Draws (Dict.get? o key) (f s)) chain own) :
    Draws (own.findSome? (fun o => Dict.get? o key)) (chain.findSome? f) := by
  induction h with
  | nil => exact .inl ⟨rfl, rfl⟩
  | @cons s o chain own h _ ih =>
    have e1 : (o :: own).findSome? (fun o => Dict.get? o key) = (Dict.get? o key).or (own.findSome? (fun o => Dict.get? o key)) := by
      rw [List.findSome?_cons]; cases Dict.get? o key <;> rfl
    have e2 : (s :: chain).findSome? f = (f s).or (chain.findSome? f) := by
      rw [List.findSome?_cons]; cases f s <;> rfl
    rw [e1, e2]
    exact h.or ih

theorem Draws.sep {st : Styles} {key : String} {o : Option Bool} (h : Draws (Dict.get? st key) o) : getSepAttr st key = .ok (drawn o) := by
  rcases h with ⟨h1, rfl⟩ | ⟨s, w, h1, h2, h3, rfl⟩
  · unfold getSepAttr getBorderStyle
    rw [h1]; rfl
  · have hb := h2 st key h1
    have hg : getBorderStyle st key = .ok (some w) := by
      rcases getBorderStyle_spec st key with ⟨_, v, e1, e2⟩ | ⟨hr, _⟩
      · rw [e1, borderIs_unique e2 hb]
      · exact absurd (by unfold Readable; rw [h1]; trivial) hr
    unfold getSepAttr
    rw [hg]
    simp only [drawn, Option.map_some]
    by_cases hw : w = noneText <;> simp [hw]

theorem Draws.visible {st : Styles} {key : String} {o : Option Bool} (h : Draws (Dict.get? st key) o) : Visible st key ↔ o = some true := by
  rcases h with ⟨h1, rfl⟩ | ⟨s, w, h1, h2, h3, rfl⟩
  · simp [visible_none h1]
  · have hb := h2 st key h1
    constructor
    · rintro ⟨w', hw', e1, e2⟩
      cases borderIs_unique hb hw'
      exact congrArg some (decide_eq_true e2)
    · intro h
      simp only [ne_eq, Option.some.injEq, decide_eq_true_eq] at h
      exact ⟨w, hb, h3, h⟩

theorem intercalate_toList (l : List String) : (" ".intercalate l).toList = [' '].intercalate (l.map String.toList) := by
  rw [String.toList_intercalate]; rfl

theorem keyword_line {kind : String} {size color : Option String} (hk : Keyword kind.toList) (hsp : ' ' ∉ kind.toList)
    (hs : ∀ s, size = some s → ' ' ∉ s.toList ∧ ∃ a, s.toList = a ++ ['p', 't']) (hc : ∀ c, color = some c → ' ' ∉ c.toList ∧ ∃ a, c.toList = '#' :: a)
    (hne : kind ≠ "") : ∃ s, borderLine (some kind) size color = some (.str s) ∧
      ∀ st key, Dict.get? st key = some (.str s) → BorderIs st key (some kind.toList) := by
  refine ⟨" ".intercalate (kind :: (size.toList ++ color.toList)), rfl, ?_⟩
  intro st key h
  refine .keyword _ ((kind :: (size.toList ++ color.toList)).map String.toList) _ h ?_ ⟨by simp, ?_, (intercalate_toList _).symm⟩ ?_
  · intro e
    have := congrArg String.toList e
    rw [intercalate_toList] at this
    cases hl : size.toList ++ color.toList with
    | nil =>
      rw [hl] at this
      apply hne
      apply String.toList_inj.mp
      simpa [List.intercalate] using this
    | cons a l => rw [hl] at this; simp [List.intercalate] at this
  · intro w hw
    simp only [List.map_cons, List.map_append, List.mem_cons, List.mem_append, List.mem_map, Option.mem_toList] at hw
    rcases hw with rfl | ⟨s, h1, rfl⟩ | ⟨c, h1, rfl⟩
    · exact hsp
    · exact (hs s h1).1
    · exact (hc c h1).1
  · refine ⟨[], (size.toList ++ color.toList).map String.toList, rfl, hk, ?_⟩
    intro w hw
    simp only [List.map_append, List.mem_append, List.mem_map, Option.mem_toList] at hw
    rcases hw with ⟨s, h1, rfl⟩ | ⟨c, h1, rfl⟩
    · exact fun h => h.1 (hs s h1).2
    · exact fun h => h.2.2 (hc c h1).2

theorem kind_keyword {v : String} (h1 : v ≠ "") (h2 : ' ' ∉ v.toList) (h3 : ¬ ∃ a, v.toList = a ++ ['p', 't']) :
    Keyword (borderVal v).toList ∧ ' ' ∉ (borderVal v).toList ∧ borderVal v ≠ "" ∧ ((borderVal v).toList ≠ noneText ↔ v ≠ "nil" ∧ v ≠ "none") := by
  have table : ∀ p ∈ borderStyleMapping, isKeyword p.2.toList = true ∧ ' ' ∉ p.2.toList ∧ p.2 ≠ "" ∧ (p.2.toList ≠ noneText ↔ p.1 ≠ "nil" ∧ p.1 ≠ "none") := by decide +kernel
  by_cases hn : v = "nil"
  · subst hn
    have e : borderVal "nil" = "none" := by decide +kernel
    rw [e]
    refine ⟨(isKeyword_iff _).mp (by decide), by decide, by decide, ?_⟩
    constructor
    · intro h; exact absurd (by decide) h
    · intro h; exact absurd rfl h.1
  · unfold borderVal
    simp only [if_neg hn]
    cases hg : Dict.get? borderStyleMapping v with
    | none =>
      simp only
      have e : ("w-" ++ v).toList = 'w' :: '-' :: v.toList := by rw [String.toList_append]; rfl
      have hv : v ≠ "none" := by
        intro e; subst e; revert hg; decide +kernel
      rw [e]
      refine ⟨⟨?_, ?_, ?_⟩, ?_, ?_, ?_⟩
      · rintro ⟨a, ha⟩
        cases a with
        | nil => simp at ha
        | cons x a =>
          simp only [List.cons_append, List.cons.injEq] at ha
          cases a with
          | nil => simp at ha
          | cons y a =>
            simp only [List.cons_append, List.cons.injEq] at ha
            exact h3 ⟨a, ha.2.2⟩
      · simp
      · rintro ⟨b, hb⟩; simp at hb
      · simp only [List.mem_cons, not_or]
        exact ⟨by decide, by decide, h2⟩
      · intro h
        have := congrArg String.toList h
        rw [e] at this; simp at this
      · constructor
        · intro _; exact ⟨hn, hv⟩
        · intro _; simp [noneText]
    | some x =>
      simp only
      have hm : (v, x) ∈ borderStyleMapping := by
        unfold Dict.get? at hg
        cases hf : List.find? (fun p => decide (p.1 = v)) borderStyleMapping with
        | none => rw [hf] at hg; cases hg
        | some p =>
          rw [hf] at hg
          cases hg
          have e1 := List.find?_some hf
          have e2 := List.mem_of_find?_eq_some hf
          have : p.1 = v := by simpa using e1
          rw [← this]; exact e2
      obtain ⟨t1, t2, t3, t4⟩ := table _ hm
      exact ⟨(isKeyword_iff _).mp t1, t2, t3, t4⟩

/-- a side which is read draws what it tells -/
theorem side_draws {cfg : Ooxml.Config} {b : Option Node} {names : List String} {v : Option StyleVal} (hrepr : ∀ x, ' ' ∉ (cfg.repr x).toList)
    (hp : ∀ x, b = some x → PlainBorders x) (h : BorderReads cfg b names v) : Draws v (side b names) := by
  cases b with
  | none => exact .inl ⟨h, rfl⟩
  | some b =>
    have hp := hp b rfl
    obtain ⟨size, h1, h2⟩ := h
    have hkid : ∀ e ∈ kids names b, e ∈ b.children ∧ e.tag? ≠ none := by
      intro e he
      unfold kids at he
      obtain ⟨q1, q2⟩ := List.mem_filter.mp he
      refine ⟨q1, ?_⟩
      intro hn
      rw [hn] at q2
      simp at q2
    cases hv : borderAttr b names "val" with
    | none =>
      have hk : kids names b = [] := by
        cases hk : kids names b with
        | nil => rfl
        | cons e l =>
          obtain ⟨⟨v, hv', _⟩, _⟩ := hp e (hkid e (by rw [hk]; simp)).1 (hkid e (by rw [hk]; simp)).2
          unfold borderAttr at hv
          rw [hk, List.findSome?_cons, hv'] at hv
          cases hv
      have ha : ∀ a, borderAttr b names a = none := by intro a; unfold borderAttr; rw [hk]; rfl
      rw [ha] at h1
      rcases h1 with ⟨-, rfl⟩ | ⟨t, x, e, _⟩
      · refine .inl ⟨?_, ?_⟩
        · rw [h2, ha, ha]; rfl
        · simp [side, ha]
      · cases e
    | some k =>
      obtain ⟨e, he1, he2⟩ := List.exists_of_findSome?_eq_some hv
      obtain ⟨⟨k', hk', g1, g2, g3⟩, _⟩ := hp e (hkid e he1).1 (hkid e he1).2
      rw [he2] at hk'; cases hk'
      obtain ⟨w1, w2, w3, w4⟩ := kind_keyword g1 g2 g3
      have hkind : kindOf (some k) = some (borderVal k) := by simp [kindOf, g1]
      rw [hv, hkind] at h2
      obtain ⟨s, s1, s2⟩ := keyword_line (size := size) (color := colorOf (borderAttr b names "color")) w1 w2 (by
        intro s hs
        rcases h1 with ⟨-, rfl⟩ | ⟨t, x, _, _, _, rfl⟩
        · cases hs
        · cases hs
          rw [String.toList_append]
          exact ⟨by simp [hrepr], _, rfl⟩) (by
        intro c hc
        unfold colorOf at hc
        cases hcol : borderAttr b names "color" with
        | none => rw [hcol] at hc; cases hc
        | some c' =>
          rw [hcol] at hc
          simp only at hc
          split at hc
          · cases hc
          · cases hc
            obtain ⟨e, he1, he2⟩ := List.exists_of_findSome?_eq_some hcol
            have := (hp e (hkid e he1).1 (hkid e he1).2).2 c' he2
            rw [String.toList_append]
            exact ⟨by simpa using this, _, rfl⟩) w3
      refine .inr ⟨s, (borderVal k).toList, by rw [h2, s1], s2, ?_, ?_⟩
      · intro e; exact w3 (String.toList_inj.mp e)
      · simp only [side, Option.bind_some, hv, Option.map_some, Option.some.injEq]
        exact decide_eq_decide.mpr w4.symm

end Benker.Kept
