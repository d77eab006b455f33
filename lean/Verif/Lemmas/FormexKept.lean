import Verif.Spec.FormexKept
import Verif.Lemmas.LooksKept
import Verif.Props.Conversion

/-! The order of the rows in the CALS documents, and what styles read from Formex become. -/

namespace Benker.Kept
open PyM Cals CalsSpec FmxSpec

theorem sorted_lines {α : Type} {sorting : List String} {kind : α → Option String} {all : List α} {rows order : List (View Content)}
    {R : α → View Content → Prop} {rk : Option String → Int} (hall : All₂ (fun a r => r.nature = kind a ∧ R a r) all rows)
    (hpos : ∀ (i : Nat) (r : View Content), rows[i]? = some r → r.pos = (i : Int) + 1) (hrk : ∀ n, RankIs sorting n (rk n)) (hp : order.Perm rows)
    (hs : order.Pairwise (fun r r' => rk r.nature ≤ rk r'.nature))
    (hf : ∀ k, order.filter (fun r => rk r.nature = k) = rows.filter (fun r => rk r.nature = k)) :
    ∃ lines, Sorted sorting kind all lines ∧ All₂ (fun a r => r ∈ rows ∧ r.nature = kind a ∧ R a r) lines order := by
  cases hall' : all with
  | nil =>
    subst hall'
    cases hall
    have := List.perm_nil.mp hp
    subst this
    exact ⟨[], ⟨rk, hrk, .nil, .nil, fun _ => rfl⟩, .nil⟩
  | cons a0 rest =>
    rw [← hall']
    let f : View Content → α := fun r => (all[(r.pos - 1).toNat]?).getD a0
    have hfr : ∀ (i : Nat) (r : View Content), rows[i]? = some r → all[i]? = some (f r) := by
      intro i r hr
      obtain ⟨hlt, _⟩ := List.getElem?_eq_some_iff.mp hr
      have hlt' : i < all.length := by rw [hall.length]; exact hlt
      have e : (r.pos - 1).toNat = i := by rw [hpos i r hr]; omega
      show all[i]? = some ((all[(r.pos - 1).toNat]?).getD a0)
      rw [e, List.getElem?_eq_getElem hlt']
      rfl
    have hmap : rows.map f = all := by
      apply List.ext_getElem?
      intro i
      rw [List.getElem?_map]
      cases hr : rows[i]? with
      | none =>
        rw [List.getElem?_eq_none_iff] at hr
        have : all.length ≤ i := by rw [hall.length]; exact hr
        rw [List.getElem?_eq_none_iff.mpr this]; rfl
      | some r => rw [hfr i r hr]; rfl
    have hR : ∀ r ∈ rows, r.nature = kind (f r) ∧ R (f r) r := by
      intro r hr
      obtain ⟨i, hi, rfl⟩ := List.mem_iff_getElem.mp hr
      have hi' := List.getElem?_eq_getElem hi
      obtain ⟨r', hr', h⟩ := all₂_to hall (hfr i _ hi')
      rw [hi'] at hr'; cases hr'
      exact h
    refine ⟨order.map f, ⟨rk, hrk, ?_, ?_, ?_⟩, ?_⟩
    · rw [← hmap]; exact hp.map f
    · rw [List.pairwise_map]
      refine List.Pairwise.imp_of_mem ?_ hs
      intro a b ha hb h
      rw [← (hR a (hp.mem_iff.mp ha)).1, ← (hR b (hp.mem_iff.mp hb)).1]
      exact h
    · intro k
      have key : ∀ l : List (View Content), (∀ r ∈ l, r ∈ rows) →
          (l.map f).filter (fun a => decide (rk (kind a) = k)) = (l.filter (fun r => decide (rk r.nature = k))).map f := by
        intro l hl
        rw [List.filter_map]
        congr 1
        apply List.filter_congr
        intro r hr
        simp only [Function.comp, (hR r (hl r hr)).1]
      rw [key order (fun r hr => hp.mem_iff.mp hr), hf k, ← key rows (fun _ h => h), hmap]
    · refine All₂.map_left ?_
      have : ∀ l : List (View Content), (∀ r ∈ l, r ∈ rows) → All₂ (fun x r => r ∈ rows ∧ r.nature = kind (f x) ∧ R (f x) r) l l := by
        intro l
        induction l with
        | nil => intro _; exact .nil
        | cons r l ih =>
          intro hl
          exact .cons ⟨hl r (by simp), hR r (hl r (by simp))⟩ (ih (fun r' h => hl r' (by simp [h])))
      exact this order (fun r hr => hp.mem_iff.mp hr)

theorem told_page {st : Styles} {o size attr : Option String}
    (h : Dict.get? st "x-sect-orient" = (told [("land", "landscape"), ("port", "portrait")] o).or
      (told [("DOUBLE.LANDSCAPE", "landscape"), ("DOUBLE.PORTRAIT", "portrait"), ("SINGLE.LANDSCAPE", "landscape"), ("SINGLE.PORTRAIT", "portrait")] size))
    (ht : Tells st "x-sect-orient" (byWord [("landscape", "land"), ("portrait", "port")]) attr) :
    attr = (known ["land", "port"] o).or (pageOrient size) := by
  have hw : ∀ x : StyleVal, Dict.get? st "x-sect-orient" = some x → ∀ y, byWord [("landscape", "land"), ("portrait", "port")] x = some y → attr = some y := by
    intro x hx y hy
    obtain ⟨s, h1, h2⟩ := ht.2 x hx
    rw [hy] at h1; cases h1; exact h2
  cases hl : told [("land", "landscape"), ("port", "portrait")] o with
  | some x =>
    rw [hl, Option.some_or] at h
    have : known ["land", "port"] o = byWord [("landscape", "land"), ("portrait", "port")] x := by
      cases o with
      | none => cases hl
      | some s =>
        by_cases h1 : s = "land"
        · subst h1; cases hl; rfl
        by_cases h2 : s = "port"
        · subst h2; cases hl; rfl
        simp [told, Ne.symm h1, Ne.symm h2] at hl
    obtain ⟨s, h1, h2⟩ := ht.2 x h
    rw [this, h1, h2]; rfl
  | none =>
    rw [hl, Option.none_or] at h
    have hk : known ["land", "port"] o = none := by
      cases o with
      | none => rfl
      | some s =>
        by_cases h1 : s = "land"
        · subst h1; cases hl
        by_cases h2 : s = "port"
        · subst h2; cases hl
        simp [known, Option.filter, h1, h2]
    rw [hk, Option.none_or]
    cases size with
    | none => exact ht.1 h
    | some s =>
      by_cases h1 : s = "DOUBLE.LANDSCAPE"
      · subst h1; exact hw _ h _ rfl
      by_cases h2 : s = "DOUBLE.PORTRAIT"
      · subst h2; exact hw _ h _ rfl
      by_cases h3 : s = "SINGLE.LANDSCAPE"
      · subst h3; exact hw _ h _ rfl
      by_cases h4 : s = "SINGLE.PORTRAIT"
      · subst h4; exact hw _ h _ rfl
      rw [ht.1 (by rw [h]; simp [told, Ne.symm h1, Ne.symm h2, Ne.symm h3, Ne.symm h4])]
      simp [pageOrient, h1, h2, h3, h4]

/-- without the style, the attribute repeats nothing -/
theorem part_absent {own table : Styles} {key tkey : String} {o' attr tattr : Option String} (h : LineTold own table key tkey attr tattr)
    (ho : Dict.get? own key = none) (ht : getSepAttr table tkey = .ok o') (hta : tattr = some (o'.getD "0")) : attr.or tattr = tattr := by
  have hs : getSepAttr own key = .ok none := sep_told (o := none) ho
  rw [part_line h hs ht hta]; rfl

end Benker.Kept
