import Verif.Spec.WordAlike
import Verif.Lemmas.Alike
import Verif.Model.Ooxml

/-! Word documents which tell the same table. -/

namespace Benker.DocSpec
open PyM

variable {n n' : Node}

theorem SameWord.refl (a : Dict QName String) : SameWord a a := fun _ _ => rfl

theorem attr_word (h : Alike word n n') {k : String} (hk : k ∈ wordAttributes) : n.attr (Ooxml.w k) = n'.attr (Ooxml.w k) := h.attrs SameWord.refl k hk

theorem children_alike {R : Rules} (h : Alike R n n') : AlikeAll R n.children n'.children := by
  cases h with
  | same => exact AlikeAll.refl _
  | cell => exact AlikeAll.refl _
  | inside _ _ _ _ _ _ _ _ _ _ _ _ hc => exact hc

theorem word_inert_tag {m : Node} (h : word.inert m) {names : List String} (hs : ∀ x ∈ names, x ∈ wordElements) :
    decide (m.tag? ∈ names.map (fun x => some (Ooxml.w x))) = false := by
  rw [decide_eq_false_iff_not]
  intro hm
  obtain ⟨x, hx, e⟩ := List.mem_map.mp hm
  cases m with
  | elem t a tx cs tl =>
    have e : Ooxml.w x = t := Option.some.inj e
    subst e
    exact h (Ooxml.w x) a (by simp [toks]) (List.mem_map.mpr ⟨x, hs x hx, rfl⟩)
  | pi => cases e
  | comment => cases e

theorem filter_alike {names : List String} (hs : ∀ x ∈ names, x ∈ wordElements) : ∀ {ns ns' : List Node}, AlikeAll word ns ns' →
    List.Forall₂ (Alike word) (ns.filter (fun c => c.tag? ∈ names.map (fun x => some (Ooxml.w x)))) (ns'.filter (fun c => c.tag? ∈ names.map (fun x => some (Ooxml.w x))))
  | _, _, .nil => .nil
  | _, _, .cons m m' ns ns' h hc => by
    rw [List.filter_cons, List.filter_cons, h.tag]
    split
    · exact .cons h (filter_alike hs hc)
    · exact filter_alike hs hc
  | _, _, .left m ns ns' h hc => by
    rw [List.filter_cons, word_inert_tag h hs]
    exact filter_alike hs hc
  | _, _, .right m ns ns' h hc => by
    rw [List.filter_cons (x := m), word_inert_tag h hs]
    exact filter_alike hs hc

theorem flatMap_alike {r : Node → Node → Prop} {f : Node → List Node} {l l' : List Node} (h : List.Forall₂ r l l')
    (hf : ∀ a b, r a b → List.Forall₂ r (f a) (f b)) : List.Forall₂ r (l.flatMap f) (l'.flatMap f) := by
  induction h with
  | nil => exact .nil
  | cons hab _ ih => exact forall2_append (hf _ _ hab) ih

theorem select_alike {path : List (List String)} (hs : ∀ names ∈ path, ∀ x ∈ names, x ∈ wordElements) (h : Alike word n n') :
    List.Forall₂ (Alike word) (Ooxml.select path n) (Ooxml.select path n') := by
  unfold Ooxml.select
  have : List.Forall₂ (Alike word) [n] [n'] := .cons h .nil
  generalize [n] = l at this
  generalize [n'] = l' at this
  induction path generalizing l l' with
  | nil => exact this
  | cons names path ih =>
    exact ih (fun ns h => hs ns (List.mem_cons_of_mem _ h)) _ _
      (flatMap_alike this (fun a b hab => filter_alike (hs names (List.mem_cons_self ..)) (children_alike hab)))

theorem findSome_alike {l l' : List Node} (h : List.Forall₂ (Alike word) l l') {k : String} (hk : k ∈ wordAttributes) :
    l.findSome? (fun m => m.attr (Ooxml.w k)) = l'.findSome? (fun m => m.attr (Ooxml.w k)) := by
  induction h with
  | nil => rfl
  | cons hab _ ih => rw [List.findSome?_cons, List.findSome?_cons, attr_word hab hk, ih]

theorem attrOf_alike {p p' : Option Node} (h : OptAlike word p p') {path : List (List String)} (hs : ∀ names ∈ path, ∀ x ∈ names, x ∈ wordElements)
    {k : String} (hk : k ∈ wordAttributes) : Ooxml.attrOf p path k = Ooxml.attrOf p' path k := by
  cases h with
  | none => rfl
  | some n n' h => exact findSome_alike (select_alike hs h) hk

theorem head_alike {l l' : List Node} (h : List.Forall₂ (Alike word) l l') : OptAlike word l.head? l'.head? := by
  cases h with
  | nil => exact .none
  | cons hab _ => exact .some _ _ hab

theorem nodeOf_alike {p p' : Option Node} (h : OptAlike word p p') {path : List (List String)} (hs : ∀ names ∈ path, ∀ x ∈ names, x ∈ wordElements) :
    OptAlike word (Ooxml.nodeOf p path) (Ooxml.nodeOf p' path) := by
  cases h with
  | none => exact .none
  | some n n' h => exact head_alike (select_alike hs h)

theorem borderProps_alike (cfg : Ooxml.Config) (h : Alike word n n') {names : List String} (hs : ∀ x ∈ names, x ∈ wordElements) :
    Ooxml.borderProps cfg n names = Ooxml.borderProps cfg n' names := by
  have hp : ∀ k, k ∈ wordAttributes → Ooxml.attrOf (some n) [names] k = Ooxml.attrOf (some n') [names] k := fun k hk =>
    attrOf_alike (.some _ _ h) (fun ns hns x hx => by rw [List.mem_singleton.mp hns] at hx; exact hs x hx) hk
  unfold Ooxml.borderProps
  simp only [hp "shadow" (by decide), hp "space" (by decide), hp "sz" (by decide), hp "val" (by decide), hp "color" (by decide)]

theorem bordersOf_alike (cfg : Ooxml.Config) {p p' : Option Node} (h : OptAlike word p p') {mapping : List (String × List String)}
    (hs : ∀ m ∈ mapping, ∀ x ∈ m.2, x ∈ wordElements) : Ooxml.bordersOf cfg mapping p = Ooxml.bordersOf cfg mapping p' := by
  cases h with
  | none => rfl
  | some n n' h =>
    unfold Ooxml.bordersOf
    simp only
    have : mapping.mapM (fun m => (Ooxml.borderProps cfg n m.2).map (fun p => (m.1, p))) =
        mapping.mapM (fun m => (Ooxml.borderProps cfg n' m.2).map (fun p => (m.1, p))) := by
      induction mapping with
      | nil => rfl
      | cons m ms ih =>
        rw [List.mapM_cons, List.mapM_cons, borderProps_alike cfg h (hs m (List.mem_cons_self ..)), ih (fun m hm => hs m (List.mem_cons_of_mem _ hm))]
    rw [this]

theorem tblStyles_word (cfg : Ooxml.Config) {p p' : Option Node} (hp : OptAlike word p p') (h : Alike word n n') :
    Ooxml.tblStyles cfg p n = Ooxml.tblStyles cfg p' n' := by
  have ho : OptAlike word (some n) (some n') := .some _ _ h
  have e1 : Ooxml.tableBorders cfg (Ooxml.nodeOf (some n) [["tblPr"], ["tblBorders"]]) = Ooxml.tableBorders cfg (Ooxml.nodeOf (some n') [["tblPr"], ["tblBorders"]]) :=
    bordersOf_alike cfg (nodeOf_alike ho (by decide)) (by decide)
  have e2 : Ooxml.shading (Ooxml.nodeOf (some n) [["tblPr"], ["shd"]]) = Ooxml.shading (Ooxml.nodeOf (some n') [["tblPr"], ["shd"]]) := by
    unfold Ooxml.shading
    rw [attrOf_alike (nodeOf_alike ho (by decide)) (by decide) (by decide)]
  have e3 : Ooxml.pageStyles cfg (Ooxml.nodeOf p [["pgSz"]]) = Ooxml.pageStyles cfg (Ooxml.nodeOf p' [["pgSz"]]) := by
    have hn := nodeOf_alike hp (path := [["pgSz"]]) (by decide)
    unfold Ooxml.pageStyles
    simp only [attrOf_alike hn (path := []) (by decide) (show "w" ∈ wordAttributes by decide), attrOf_alike hn (path := []) (by decide) (show "h" ∈ wordAttributes by decide),
      attrOf_alike hn (path := []) (by decide) (show "orient" ∈ wordAttributes by decide)]
  have e4 : Ooxml.sectCols p = Ooxml.sectCols p' := by
    unfold Ooxml.sectCols
    rw [attrOf_alike hp (by decide) (by decide)]
    cases hp with
    | none => rfl
    | some m m' hm =>
      have := (select_alike (path := [["cols"], ["col"]]) (by decide) hm).length_eq
      simp only [this]
  unfold Ooxml.tblStyles
  simp only [e1, e2, e3, e4, attrOf_alike ho (path := [["tblPr"], ["tblStyle"]]) (by decide) (show "val" ∈ wordAttributes by decide)]

theorem isSome_alike {R : Rules} {p p' : Option Node} (h : OptAlike R p p') {α : Type} (a b : α) :
    (match p with | none => a | some _ => b) = (match p' with | none => a | some _ => b) := by
  cases h <;> rfl

theorem parseTr_word (cfg : Ooxml.Config) (h : Alike word n n') : Ooxml.parseTr cfg n = Ooxml.parseTr cfg n' := by
  have ho : OptAlike word (some n) (some n') := .some _ _ h
  have e1 : Ooxml.rowNature n = Ooxml.rowNature n' := by
    unfold Ooxml.rowNature
    rw [attrOf_alike ho (path := [["trPr"], ["tblHeader"]]) (by decide) (by decide)]
    have := nodeOf_alike ho (path := [["trPr"], ["tblHeader"]]) (by decide)
    generalize Ooxml.nodeOf (some n) [["trPr"], ["tblHeader"]] = x at this
    generalize Ooxml.nodeOf (some n') [["trPr"], ["tblHeader"]] = x' at this
    cases this <;> rfl
  have e2 : Ooxml.rowHeight cfg n = Ooxml.rowHeight cfg n' := by
    unfold Ooxml.rowHeight
    rw [attrOf_alike ho (path := [["trPr"], ["tblHeader"]]) (by decide) (show "hRule" ∈ wordAttributes by decide),
      attrOf_alike ho (path := [["trPr"], ["tblHeader"]]) (by decide) (show "val" ∈ wordAttributes by decide)]
    have := nodeOf_alike ho (path := [["trPr"], ["trHeight"]]) (by decide)
    generalize Ooxml.nodeOf (some n) [["trPr"], ["trHeight"]] = x at this
    generalize Ooxml.nodeOf (some n') [["trPr"], ["trHeight"]] = x' at this
    cases this <;> rfl
  have e3 : Ooxml.rowIns n = Ooxml.rowIns n' := by
    unfold Ooxml.rowIns
    have h1 := fun k hk => attrOf_alike ho (path := [["trPr"], ["ins"]]) (by decide) (k := k) hk
    have := nodeOf_alike ho (path := [["trPr"], ["ins"]]) (by decide)
    generalize Ooxml.nodeOf (some n) [["trPr"], ["ins"]] = x at this
    generalize Ooxml.nodeOf (some n') [["trPr"], ["ins"]] = x' at this
    simp only [List.filterMap_cons, List.filterMap_nil, h1 "id" (by decide), h1 "author" (by decide), h1 "date" (by decide)]
    cases this <;> rfl
  unfold Ooxml.parseTr
  rw [e1, e2, e3]

/-- a cell is read in its children -/
theorem parseTc_word (cfg : Ooxml.Config) (h : Alike word n n') (ht : n.tag? = some (Ooxml.w "tc")) : Ooxml.parseTc cfg n = Ooxml.parseTc cfg n' := by
  cases h with
  | same => rfl
  | inside _ _ _ _ _ _ _ _ _ hn _ _ _ => exact absurd (Option.some.inj ht) hn
  | cell t a a' x cs tl tl' =>
    have hsel : ∀ names path, Ooxml.select (names :: path) (.elem t a x cs tl) = Ooxml.select (names :: path) (.elem t a' x cs tl') := fun _ _ => rfl
    have hat : ∀ names path k, Ooxml.attrOf (some (.elem t a x cs tl)) (names :: path) k = Ooxml.attrOf (some (.elem t a' x cs tl')) (names :: path) k := fun _ _ _ => rfl
    have hno : ∀ names path, Ooxml.nodeOf (some (.elem t a x cs tl)) (names :: path) = Ooxml.nodeOf (some (.elem t a' x cs tl')) (names :: path) := fun _ _ => rfl
    have e1 : Ooxml.tcWidth (.elem t a x cs tl) = Ooxml.tcWidth (.elem t a' x cs tl') := rfl
    have e2 : Ooxml.vMerge (.elem t a x cs tl) = Ooxml.vMerge (.elem t a' x cs tl') := rfl
    have e3 : Ooxml.tcContent (.elem t a x cs tl) = Ooxml.tcContent (.elem t a' x cs tl') := rfl
    have e4 : Ooxml.tcStyles cfg (.elem t a x cs tl) = Ooxml.tcStyles cfg (.elem t a' x cs tl') := by
      unfold Ooxml.tcStyles
      have va : Ooxml.vAlign (.elem t a x cs tl) = Ooxml.vAlign (.elem t a' x cs tl') := rfl
      have ha : Ooxml.hAlign (.elem t a x cs tl) = Ooxml.hAlign (.elem t a' x cs tl') := rfl
      have em : Ooxml.tcEmpty (.elem t a x cs tl) = Ooxml.tcEmpty (.elem t a' x cs tl') := by
        unfold Ooxml.tcEmpty
        rw [e3]
        simp only [Ooxml.hasInside]
      rw [va, ha, em, hno, hno]
    unfold Ooxml.parseTc Ooxml.newCell
    rw [e1, e2, e3, e4]

theorem word_inert (m : Node) (p : Option Node) (h : word.inert m) : walk Ooxml.selected p m = [] := by
  have := walkList_unselected Ooxml.selected p [m] (by
    intro t a ht
    rw [toksList, toksList, List.append_nil] at ht
    unfold Ooxml.selected
    rw [decide_eq_false_iff_not]
    intro hm
    obtain ⟨x, hx, rfl⟩ := List.mem_map.mp hm
    have : ∀ x ∈ ["tbl", "tblGrid", "gridCol", "tr", "tc"], x ∈ wordElements := by decide
    exact h _ a ht (List.mem_map.mpr ⟨x, this x hx, rfl⟩))
  simpa [walkList] using this

theorem wordEvent_alike (cfg : Ooxml.Config) {p p' : Option Node} (hp : OptAlike word p p') {e e' : Event} (h : EventAlike word e e') :
    Ooxml.onEvent cfg p e = Ooxml.onEvent cfg p' e' := by
  obtain ⟨hs, hn, _⟩ := h
  unfold Ooxml.onEvent
  rw [hs]
  split
  · unfold Ooxml.onStart
    rw [← hn.tag]
    split
    · unfold Ooxml.parseTbl
      rw [tblStyles_word cfg hp hn, attrOf_alike (.some _ _ hn) (path := [["tblPr"], ["tblStyle"]]) (by decide) (show "val" ∈ wordAttributes by decide)]
    · split
      · rfl
      · split
        · unfold Ooxml.parseGridCol
          rw [attr_word hn (by decide)]
        · split
          · rw [parseTr_word cfg hn]
          · split
            · rename_i ht
              rw [parseTc_word cfg hn ht]
            · rfl
  · unfold Ooxml.onEnd
    rw [hn.tag]

theorem wordLoop_alike (cfg : Ooxml.Config) {p p' : Option Node} (hp : OptAlike word p p') {es es' : List Event} (h : List.Forall₂ (EventAlike word) es es') :
    ∀ d, Ooxml.loop cfg p d es = Ooxml.loop cfg p' d es' := by
  induction h with
  | nil => intro d; rfl
  | @cons e e' es es' he _ ih =>
    intro d
    have hd : Ooxml.newDepth d e = Ooxml.newDepth d e' := by
      unfold Ooxml.newDepth
      rw [he.node.tag, he.start]
    simp only [Ooxml.loop, hd, wordEvent_alike cfg hp he, ih]

end Benker.DocSpec
