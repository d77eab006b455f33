import Verif.Spec.Alike
import Verif.Lemmas.FormexDoc

/-! Documents which tell the same table. -/

namespace Benker.DocSpec
open PyM CalsSpec FmxSpec

/-- events of which the nodes tell the same -/
structure EventAlike (R : Rules) (e e' : Event) : Prop where
  start : e.start = e'.start
  node : Alike R e.node e'.node
  parent : OptAlike R e.parent e'.parent

variable {R : Rules} {sel : QName → Bool}

theorem AlikeAll.refl (ns : List Node) : AlikeAll R ns ns := by
  induction ns with
  | nil => exact .nil
  | cons n ns ih => exact .cons n n ns ns (.same n) ih

theorem optAlike_refl (p : Option Node) : OptAlike R p p := by
  cases p with
  | none => exact .none
  | some n => exact .some n n (.same n)

theorem forall2_append {α β : Type} {r : α → β → Prop} {l1 l2 : List α} {m1 m2 : List β} (h1 : List.Forall₂ r l1 m1) (h2 : List.Forall₂ r l2 m2) :
    List.Forall₂ r (l1 ++ l2) (m1 ++ m2) := by
  induction h1 with
  | nil => exact h2
  | cons h _ ih => exact .cons h ih

theorem walk_around {t : QName} {a a' : Dict QName String} {x x' : Option String} {cs cs' : List Node} {tl tl' : Option String} {p p' : Option Node}
    (hn : Alike R (.elem t a x cs tl) (.elem t a' x' cs' tl')) (hp : OptAlike R p p')
    (hc : List.Forall₂ (EventAlike R) (walkList sel (some (.elem t a x cs tl)) cs) (walkList sel (some (.elem t a' x' cs' tl')) cs')) :
    List.Forall₂ (EventAlike R) (walk sel p (.elem t a x cs tl)) (walk sel p' (.elem t a' x' cs' tl')) := by
  simp only [walk]
  cases sel t with
  | false => simpa using hc
  | true =>
    simp only [if_true]
    exact forall2_append (forall2_append (.cons ⟨rfl, hn, hp⟩ .nil) hc) (.cons ⟨rfl, hn, hp⟩ .nil)

mutual
theorem walk_refl : ∀ (n : Node) {p p' : Option Node}, OptAlike R p p' → List.Forall₂ (EventAlike R) (walk sel p n) (walk sel p' n)
  | .elem t a x cs tl, _, _, hp => walk_around (.same _) hp (walkList_refl cs (.some _ _ (.same _)))
  | .pi _ _ _, _, _, _ => .nil
  | .comment _ _, _, _, _ => .nil
theorem walkList_refl : ∀ (ns : List Node) {p p' : Option Node}, OptAlike R p p' → List.Forall₂ (EventAlike R) (walkList sel p ns) (walkList sel p' ns)
  | [], _, _, _ => .nil
  | n :: ns, _, _, hp => forall2_append (walk_refl n hp) (walkList_refl ns hp)
end

mutual
theorem walk_alike (hi : ∀ n p, R.inert n → walk sel p n = []) : ∀ {n n' : Node}, Alike R n n' → ∀ {p p' : Option Node}, OptAlike R p p' →
    List.Forall₂ (EventAlike R) (walk sel p n) (walk sel p' n')
  | _, _, .same n, _, _, hp => walk_refl n hp
  | _, _, .cell t a a' x cs tl tl' ht hw ha, _, _, hp =>
    walk_around (.cell t a a' x cs tl tl' ht hw ha) hp (walkList_refl cs (.some _ _ (.cell t a a' x cs tl tl' ht hw ha)))
  | _, _, .inside t a a' x x' cs cs' tl tl' ht hw ha hc, _, _, hp =>
    walk_around (.inside t a a' x x' cs cs' tl tl' ht hw ha hc) hp
      (walkList_alike hi hc (.some _ _ (.inside t a a' x x' cs cs' tl tl' ht hw ha hc)))
theorem walkList_alike (hi : ∀ n p, R.inert n → walk sel p n = []) : ∀ {ns ns' : List Node}, AlikeAll R ns ns' → ∀ {p p' : Option Node}, OptAlike R p p' →
    List.Forall₂ (EventAlike R) (walkList sel p ns) (walkList sel p' ns')
  | _, _, .nil, _, _, _ => .nil
  | _, _, .cons n n' ns ns' h hs, _, _, hp => forall2_append (walk_alike hi h hp) (walkList_alike hi hs hp)
  | _, _, .left n ns ns' h hs, p, _, hp => by
    rw [walkList, hi n p h, List.nil_append]
    exact walkList_alike hi hs hp
  | _, _, .right n ns ns' h hs, _, p', hp => by
    rw [walkList, hi n p' h, List.nil_append]
    exact walkList_alike hi hs hp
end

theorem Alike.tag {n n' : Node} (h : Alike R n n') : n.tag? = n'.tag? := by cases h <;> rfl

theorem Alike.attrs {n n' : Node} (h : Alike R n n') (hr : ∀ a, R.attrs a a) : R.attrs n.attrs n'.attrs := by
  cases h with
  | same => exact hr _
  | cell _ _ _ _ _ _ _ _ _ ha => exact ha
  | inside _ _ _ _ _ _ _ _ _ _ _ ha _ => exact ha

theorem Alike.content {n n' : Node} (h : Alike R n n') {t : QName} (ht : n.tag? = some t) (hc : R.content t) : n.text = n'.text ∧ n.children = n'.children := by
  cases h with
  | same => exact ⟨rfl, rfl⟩
  | cell => exact ⟨rfl, rfl⟩
  | inside _ _ _ _ _ _ _ _ _ hn _ _ _ => cases ht; exact absurd hc hn

theorem Alike.whole {n n' : Node} (h : Alike R n n') {t : QName} (ht : n.tag? = some t) (hc : R.whole t) : n = n' := by
  cases h with
  | same => rfl
  | cell _ _ _ _ _ _ _ _ hn _ => cases ht; exact absurd hc hn
  | inside _ _ _ _ _ _ _ _ _ _ hn _ _ => cases ht; exact absurd hc hn

/-! ### attributes -/

theorem SameNumber.pyInt {v v' : Option String} (h : SameNumber IsInteger v v') (d : String) : Benker.pyInt (v.getD d) = Benker.pyInt (v'.getD d) := by
  rcases h with rfl | ⟨s, s', n, rfl, rfl, _, _, h, h'⟩
  · rfl
  · rw [Option.getD_some, Option.getD_some, pyInt_iff.mpr h, pyInt_iff.mpr h']

theorem readsFirst_ok {s : String} {n : Int} (h : ReadsFirst s n) : firstInt s = .ok n := by
  obtain ⟨k, rfl, h⟩ := h
  exact firstInt_number h

theorem SameNumber.firstInt {v v' : Option String} (h : SameNumber ReadsFirst v v') (d : String) : Benker.firstInt (v.getD d) = Benker.firstInt (v'.getD d) := by
  rcases h with rfl | ⟨s, s', n, rfl, rfl, _, _, h, h'⟩
  · rfl
  · rw [Option.getD_some, Option.getD_some, readsFirst_ok h, readsFirst_ok h']

theorem SameCals.refl (ns : Option String) (a : Dict QName String) : SameCals ns a a := ⟨fun _ _ => rfl, fun _ _ => .inl rfl, fun _ _ => .inl rfl⟩

theorem mapStyle_cals {ns : Option String} {n n' : Node} (h : SameCals ns n.attrs n'.attrs) {k : String} (hk : k ∈ calsWords) (m : List (String × StyleVal))
    (key : String) (st : Styles) : CalsP.mapStyle n ⟨ns, k⟩ m key st = CalsP.mapStyle n' ⟨ns, k⟩ m key st := by
  unfold CalsP.mapStyle Node.attr
  rw [h.words k hk]

theorem copyStyle_cals {ns : Option String} {n n' : Node} (h : SameCals ns n.attrs n'.attrs) {k : String} (hk : k ∈ calsWords)
    (key : String) (st : Styles) : CalsP.copyStyle n ⟨ns, k⟩ key st = CalsP.copyStyle n' ⟨ns, k⟩ key st := by
  unfold CalsP.copyStyle Node.attr
  rw [h.words k hk]

theorem attr_cals {ns : Option String} {n n' : Node} (h : SameCals ns n.attrs n'.attrs) {k : String} (hk : k ∈ calsWords) :
    n.attr ⟨ns, k⟩ = n'.attr ⟨ns, k⟩ := h.words k hk

theorem colspecNum_alike {ns : Option String} {n n' : Node} (h : SameCals ns n.attrs n'.attrs) (pos : Int) :
    (match n.attr ⟨ns, "colnum"⟩ with
      | none => .ok pos
      | some v => if v = "" then .ok pos else pyInt v) =
    (match n'.attr ⟨ns, "colnum"⟩ with
      | none => .ok pos
      | some v => if v = "" then .ok pos else pyInt v : Except PyErr Int) := by
  have := h.numbers "colnum" (by simp)
  unfold Node.attr
  rcases this with e | ⟨s, s', k, e, e', h1, h2, h3, h4⟩
  · rw [e]
  · rw [e, e']
    simp only [if_neg h1, if_neg h2, pyInt_iff.mpr h3, pyInt_iff.mpr h4]

/-! ### the CALS parser -/

section
variable {pc : CalsP.Config} {n n' : Node}

theorem cals_inert (m : Node) (p : Option Node) (h : (cals pc.ns).inert m) : walk (CalsP.selected pc) p m = [] := by
  have := walkList_unselected (CalsP.selected pc) p [m] (noCals_unselected h)
  simpa [walkList] using this

theorem cals_attrs (h : Alike (cals pc.ns) n n') : SameCals pc.ns n.attrs n'.attrs := h.attrs (SameCals.refl pc.ns)

theorem tableElem_alike (h : Alike (cals pc.ns) n n') : CalsP.parseTableElem pc n = CalsP.parseTableElem pc n' := by
  have ha := cals_attrs h
  unfold CalsP.parseTableElem CalsP.tableStyles CalsP.tableNature CalsP.Config.q
  simp only [mapStyle_cals ha (show "colsep" ∈ calsWords by decide), mapStyle_cals ha (show "rowsep" ∈ calsWords by decide),
    mapStyle_cals ha (show "orient" ∈ calsWords by decide), mapStyle_cals ha (show "pgwide" ∈ calsWords by decide),
    copyStyle_cals ha (show "bgcolor" ∈ calsWords by decide), attr_cals ha (show "frame" ∈ calsWords by decide),
    attr_cals ha (show "width" ∈ calsWords by decide), attr_cals ha (show "tabstyle" ∈ calsWords by decide)]

theorem tgroup_alike (h : Alike (cals pc.ns) n n') : CalsP.parseTgroup pc n = CalsP.parseTgroup pc n' := by
  have ha := cals_attrs h
  unfold CalsP.parseTgroup CalsP.Config.q
  simp only [mapStyle_cals ha (show "colsep" ∈ calsWords by decide), mapStyle_cals ha (show "rowsep" ∈ calsWords by decide),
    attr_cals ha (show "tgroupstyle" ∈ calsWords by decide)]

theorem localname_alike (h : Alike R n n') : CalsP.localname n = CalsP.localname n' := by
  unfold CalsP.localname
  rw [h.tag]

theorem rowLooks_alike {p p' : Option Node} (hp : OptAlike (cals pc.ns) p p') (h : Alike (cals pc.ns) n n') :
    CalsP.rowLooks pc p n = CalsP.rowLooks pc p' n' := by
  have ha := cals_attrs h
  unfold CalsP.rowLooks CalsP.Config.q
  cases hp with
  | none =>
    simp only [mapStyle_cals ha (show "valign" ∈ calsWords by decide), mapStyle_cals ha (show "rowsep" ∈ calsWords by decide),
      copyStyle_cals ha (show "bgcolor" ∈ calsWords by decide), copyStyle_cals ha (show "rowstyle" ∈ calsWords by decide)]
  | some q q' hq =>
    have hqa := cals_attrs hq
    simp only [mapStyle_cals ha (show "valign" ∈ calsWords by decide), mapStyle_cals ha (show "rowsep" ∈ calsWords by decide),
      copyStyle_cals ha (show "bgcolor" ∈ calsWords by decide), copyStyle_cals ha (show "rowstyle" ∈ calsWords by decide),
      mapStyle_cals hqa (show "valign" ∈ calsWords by decide), localname_alike hq]

theorem entry_alike (h : Alike (cals pc.ns) n n') (ht : n.tag? = some (pc.q "entry")) : CalsP.parseEntry pc n = CalsP.parseEntry pc n' := by
  have ha := cals_attrs h
  obtain ⟨hx, hc⟩ := h.content ht rfl
  have e1 : CalsP.entryContent n = CalsP.entryContent n' := by
    unfold CalsP.entryContent
    rw [hx, hc]
  have e2 : ∀ pos, CalsP.entrySpan pc pos n = CalsP.entrySpan pc pos n' := by
    intro pos
    unfold CalsP.entrySpan CalsP.Config.q
    have h1 := (ha.columns "namest" (by simp)).firstInt
    have h2 := (ha.columns "nameend" (by simp)).firstInt
    have h3 := (ha.numbers "morerows" (by simp)).pyInt
    simp only [Node.attr, h1, h2, h3]
  have e3 : CalsP.entryStyles pc n = CalsP.entryStyles pc n' := by
    unfold CalsP.entryStyles CalsP.Config.q
    simp only [mapStyle_cals ha (show "colsep" ∈ calsWords by decide), mapStyle_cals ha (show "rowsep" ∈ calsWords by decide),
      copyStyle_cals ha (show "bgcolor" ∈ calsWords by decide), mapStyle_cals ha (show "valign" ∈ calsWords by decide),
      mapStyle_cals ha (show "align" ∈ calsWords by decide), copyStyle_cals ha (show "cellstyle" ∈ calsWords by decide), e1]
  unfold CalsP.parseEntry
  simp only [e1, e2, e3]

theorem colspec_alike {p p' : Option Node} (hp : OptAlike (cals pc.ns) p p') (h : Alike (cals pc.ns) n n') :
    CalsP.parseColspec pc p n = CalsP.parseColspec pc p' n' := by
  have ha := cals_attrs h
  have e1 : CalsP.colspecParent p = CalsP.colspecParent p' := by
    cases hp with
    | none => rfl
    | some q q' hq =>
      unfold CalsP.colspecParent
      simp only [localname_alike hq]
  have e2 : ∀ pos, CalsP.colspecNum pc pos n = CalsP.colspecNum pc pos n' := colspecNum_alike ha
  have e3 : CalsP.colspecStyles pc n = CalsP.colspecStyles pc n' := by
    unfold CalsP.colspecStyles CalsP.Config.q
    simp only [mapStyle_cals ha (show "colsep" ∈ calsWords by decide), mapStyle_cals ha (show "rowsep" ∈ calsWords by decide),
      copyStyle_cals ha (show "colwidth" ∈ calsWords by decide), mapStyle_cals ha (show "align" ∈ calsWords by decide)]
  unfold CalsP.parseColspec
  simp only [e1, e2, e3]

theorem event_alike {e e' : Event} (h : EventAlike (cals pc.ns) e e') : CalsP.onEvent pc e = CalsP.onEvent pc e' := by
  obtain ⟨hs, hn, hp⟩ := h
  unfold CalsP.onEvent
  rw [hs]
  split
  · unfold CalsP.onStart
    rw [← hn.tag]
    cases ht : e.node.tag? with
    | none => rfl
    | some t =>
      simp only
      split
      · rename_i h1
        rw [entry_alike hn (by rw [ht, h1])]
      · split
        · unfold CalsP.parseRow
          simp only [rowLooks_alike hp hn]
        · split
          · rfl
          · split
            · rw [colspec_alike hp hn]
            · split
              · rw [tgroup_alike hn]
              · split
                · rw [tableElem_alike hn]
                · rfl
  · unfold CalsP.onEnd
    rw [hn.tag]

theorem loop_alike {es es' : List Event} (h : List.Forall₂ (EventAlike (cals pc.ns)) es es') : ∀ d, CalsP.loop pc d es = CalsP.loop pc d es' := by
  induction h with
  | nil => intro d; rfl
  | @cons e e' es es' he _ ih =>
    intro d
    have hd : CalsP.newDepth pc d e = CalsP.newDepth pc d e' := by
      unfold CalsP.newDepth
      rw [he.node.tag, he.start]
    simp only [CalsP.loop, hd, event_alike he, ih]

end

/-! ### the Formex parser -/

section
variable {pc : FmxP.Config} {n n' : Node}

theorem formex_inert (m : Node) (p : Option Node) (h : (formex pc.ns pc.calsNs).inert m) : walk (FmxP.selected pc) p m = [] := by
  have := walkList_unselected (FmxP.selected pc) p [m] (noFmx_unselected h.1)
  simpa [walkList] using this

theorem SameFormex.refl (ns calsNs : Option String) (a : Dict QName String) : SameFormex ns calsNs a a :=
  ⟨SameCals.refl _ _, fun _ _ => rfl, fun _ _ => .inl rfl⟩

theorem formex_attrs (h : Alike (formex pc.ns pc.calsNs) n n') : SameFormex pc.ns pc.calsNs n.attrs n'.attrs := h.attrs (SameFormex.refl _ _)

theorem attr_formex (h : Alike (formex pc.ns pc.calsNs) n n') {k : String} (hk : k ∈ ["TYPE", "PAGE.SIZE", "CLASS"]) :
    n.attr (pc.f k) = n'.attr (pc.f k) := (formex_attrs h).words k hk

theorem int_formex (h : Alike (formex pc.ns pc.calsNs) n n') {k : String} (hk : k ∈ ["COLSPAN", "ROWSPAN", "COL.START", "COL.END"]) (d : String) :
    pyInt ((n.attr (pc.f k)).getD d) = pyInt ((n'.attr (pc.f k)).getD d) := ((formex_attrs h).numbers k hk).pyInt d

theorem tblStyles_alike {p p' : Option Node} (hp : OptAlike (formex pc.ns pc.calsNs) p p') : FmxP.tblStyles pc p = FmxP.tblStyles pc p' := by
  cases hp with
  | none => rfl
  | some q q' hq =>
    unfold FmxP.tblStyles CalsP.mapStyle
    simp only [attr_formex hq (show "PAGE.SIZE" ∈ _ by simp), attr_formex hq (show "CLASS" ∈ _ by simp)]

theorem corpus_alike {p p' : Option Node} (hp : OptAlike (formex pc.ns pc.calsNs) p p') (h : Alike (formex pc.ns pc.calsNs) n n') :
    FmxP.parseCorpus pc p n = FmxP.parseCorpus pc p' n' := by
  have ha := (formex_attrs h).cals
  unfold FmxP.parseCorpus FmxP.corpusStyles FmxP.corpusNature FmxP.Config.q
  simp only [tblStyles_alike hp, mapStyle_cals ha (show "colsep" ∈ calsWords by decide), mapStyle_cals ha (show "rowsep" ∈ calsWords by decide),
    mapStyle_cals ha (show "orient" ∈ calsWords by decide), mapStyle_cals ha (show "pgwide" ∈ calsWords by decide),
    copyStyle_cals ha (show "bgcolor" ∈ calsWords by decide), attr_cals ha (show "frame" ∈ calsWords by decide),
    attr_cals ha (show "tabstyle" ∈ calsWords by decide)]

theorem calsRowStyles_alike (h : Alike (formex pc.ns pc.calsNs) n n') : FmxP.calsRowStyles pc n = FmxP.calsRowStyles pc n' := by
  have ha := (formex_attrs h).cals
  unfold FmxP.calsRowStyles FmxP.Config.q
  simp only [mapStyle_cals ha (show "valign" ∈ calsWords by decide), mapStyle_cals ha (show "rowsep" ∈ calsWords by decide),
    copyStyle_cals ha (show "bgcolor" ∈ calsWords by decide), copyStyle_cals ha (show "rowstyle" ∈ calsWords by decide)]

theorem nodeContent_alike (h : Alike (formex pc.ns pc.calsNs) n n') {t : QName} (ht : n.tag? = some t) (hc : (formex pc.ns pc.calsNs).content t) :
    FmxP.nodeContent pc n = FmxP.nodeContent pc n' := by
  obtain ⟨hx, hc⟩ := h.content ht hc
  unfold FmxP.nodeContent FmxP.containsIe CalsP.entryContent
  rw [hx, hc]

theorem title_alike (h : Alike (formex pc.ns pc.calsNs) n n') {t : QName} (ht : n.tag? = some t) (hc : (formex pc.ns pc.calsNs).content t) (tag : String)
    (blk : Nat) : FmxP.parseTitle pc tag blk n = FmxP.parseTitle pc tag blk n' := by
  unfold FmxP.parseTitle FmxP.titleRow FmxP.titleStyles
  simp only [calsRowStyles_alike h, nodeContent_alike h ht hc, int_formex h (show "COL.START" ∈ _ by simp), int_formex h (show "COL.END" ∈ _ by simp)]

/-- the number of columns, after `namest` and `nameend` -/
def spanWidth (x y : Option String) (w : Int) : Except PyErr Int :=
  match x, y with
  | some a, some b =>
    if a ≠ "" ∧ b ≠ "" then do
      let start ← firstInt a
      let stop ← firstInt b
      pure (stop - start + 1)
    else pure w
  | _, _ => pure w

/-- the number of rows, after `morerows` -/
def spanHeight (z : Option String) (v : Int) : Except PyErr Int :=
  match z with
  | none => pure v
  | some m => if m = "" then pure v else do
    let k ← pyInt m
    pure (k + 1)

theorem cellSpan_eq (n : Node) : FmxP.cellSpan pc n = (do
    let w ← pyInt ((n.attr (pc.f "COLSPAN")).getD "1")
    let v ← pyInt ((n.attr (pc.f "ROWSPAN")).getD "1")
    let w ← spanWidth (n.attr (pc.q "namest")) (n.attr (pc.q "nameend")) w
    let v ← spanHeight (n.attr (pc.q "morerows")) v
    pure (w, v)) := by
  unfold FmxP.cellSpan spanWidth spanHeight
  refine bind_congr fun w => bind_congr fun v => ?_
  cases n.attr (pc.q "namest") with
  | none =>
    simp only
    cases n.attr (pc.q "morerows") with
    | none => rfl
    | some m => by_cases hm : m = "" <;> simp [hm]
  | some a =>
    cases n.attr (pc.q "nameend") with
    | none =>
      simp only
      cases n.attr (pc.q "morerows") with
      | none => rfl
      | some m => by_cases hm : m = "" <;> simp [hm]
    | some b =>
      simp only
      by_cases hab : a ≠ "" ∧ b ≠ ""
      · rw [if_pos hab, if_pos hab]
        simp only [bind_assoc, pure_bind]
        refine bind_congr fun x => bind_congr fun y => ?_
        cases n.attr (pc.q "morerows") with
        | none => rfl
        | some m => by_cases hm : m = "" <;> simp [hm]
      · rw [if_neg hab, if_neg hab]
        simp only [pure_bind]
        cases n.attr (pc.q "morerows") with
        | none => rfl
        | some m => by_cases hm : m = "" <;> simp [hm]

theorem spanHeight_alike {z z' : Option String} (h : SameNumber IsInteger z z') (v : Int) : spanHeight z v = spanHeight z' v := by
  rcases h with rfl | ⟨s, s', k, rfl, rfl, a1, a2, a3, a4⟩
  · rfl
  · simp only [spanHeight, a1, a2, if_false, pyInt_iff.mpr a3, pyInt_iff.mpr a4]

theorem spanWidth_alike {x x' y y' : Option String} (h1 : SameNumber ReadsFirst x x') (h2 : SameNumber ReadsFirst y y') (w : Int) :
    spanWidth x y w = spanWidth x' y' w := by
  rcases h1 with rfl | ⟨s, s', k, rfl, rfl, a1, a2, a3, a4⟩ <;> rcases h2 with rfl | ⟨u, u', l, rfl, rfl, b1, b2, b3, b4⟩
  · rfl
  · cases x with
    | none => rfl
    | some v => simp only [spanWidth, b1, b2, ne_eq, not_false_eq_true, and_true, readsFirst_ok b3, readsFirst_ok b4]
  · cases y with
    | none => rfl
    | some v => simp only [spanWidth, a1, a2, ne_eq, not_false_eq_true, true_and, readsFirst_ok a3, readsFirst_ok a4]
  · simp only [spanWidth, a1, a2, b1, b2, ne_eq, not_false_eq_true, and_self, readsFirst_ok a3, readsFirst_ok a4, readsFirst_ok b3, readsFirst_ok b4]

theorem fmxSpan_alike (h : Alike (formex pc.ns pc.calsNs) n n') : FmxP.cellSpan pc n = FmxP.cellSpan pc n' := by
  have ha := (formex_attrs h).cals
  rw [cellSpan_eq, cellSpan_eq, int_formex h (show "COLSPAN" ∈ _ by simp), int_formex h (show "ROWSPAN" ∈ _ by simp)]
  simp only [Node.attr, FmxP.Config.q, spanHeight_alike (ha.numbers "morerows" (by simp)),
    spanWidth_alike (ha.columns "namest" (by simp)) (ha.columns "nameend" (by simp))]

theorem fmxCell_alike {p p' : Option Node} (hp : OptAlike (formex pc.ns pc.calsNs) p p') (h : Alike (formex pc.ns pc.calsNs) n n') {t : QName}
    (ht : n.tag? = some t) (hc : (formex pc.ns pc.calsNs).content t) : FmxP.parseCell pc p n = FmxP.parseCell pc p' n' := by
  have ha := (formex_attrs h).cals
  have e1 : FmxP.cellStyles pc p n = FmxP.cellStyles pc p' n' := by
    unfold FmxP.cellStyles FmxP.Config.q
    simp only [attr_formex h (show "TYPE" ∈ _ by simp), mapStyle_cals ha (show "colsep" ∈ calsWords by decide),
      mapStyle_cals ha (show "rowsep" ∈ calsWords by decide), copyStyle_cals ha (show "bgcolor" ∈ calsWords by decide),
      mapStyle_cals ha (show "valign" ∈ calsWords by decide), mapStyle_cals ha (show "align" ∈ calsWords by decide)]
    cases hp with
    | none => rfl
    | some q q' hq => simp only [attr_formex hq (show "TYPE" ∈ _ by simp)]
  unfold FmxP.parseCell
  simp only [e1, fmxSpan_alike h, nodeContent_alike h ht hc, attr_formex h (show "TYPE" ∈ _ by simp)]

theorem fmxColspec_alike (h : Alike (formex pc.ns pc.calsNs) n n') : FmxP.parseColspec pc n = FmxP.parseColspec pc n' := by
  have ha := (formex_attrs h).cals
  have e2 : ∀ pos, FmxP.colspecNum pc pos n = FmxP.colspecNum pc pos n' := colspecNum_alike ha
  have e3 : FmxP.colspecStyles pc n = FmxP.colspecStyles pc n' := by
    unfold FmxP.colspecStyles FmxP.Config.q
    simp only [mapStyle_cals ha (show "colsep" ∈ calsWords by decide), mapStyle_cals ha (show "rowsep" ∈ calsWords by decide),
      copyStyle_cals ha (show "colwidth" ∈ calsWords by decide), mapStyle_cals ha (show "align" ∈ calsWords by decide)]
  unfold FmxP.parseColspec
  simp only [e2, e3]

theorem inert_tag (m : Node) (hm : (formex pc.ns pc.calsNs).inert m) : m.tag? ≠ some (pc.f "CORPUS") ∧ m.tag? ≠ some (pc.f "GR.NOTES") := by
  refine ⟨fun e => ?_, hm.2⟩
  have hu := noFmx_unselected hm.1
  cases m with
  | elem t a x cs tl =>
    cases e
    have := hu (pc.f "CORPUS") a (by simp [toksList, toks])
    simp [FmxP.selected] at this
  | pi => cases e
  | comment => cases e

theorem notes_list : ∀ {ns ns' : List Node}, AlikeAll (formex pc.ns pc.calsNs) ns ns' →
    (ns.takeWhile (fun c => c.tag? ≠ some (pc.f "CORPUS"))).filter (fun c => c.tag? = some (pc.f "GR.NOTES")) =
    (ns'.takeWhile (fun c => c.tag? ≠ some (pc.f "CORPUS"))).filter (fun c => c.tag? = some (pc.f "GR.NOTES"))
  | _, _, .nil => rfl
  | _, _, .cons n n' ns ns' h hs => by
    have ih := notes_list hs
    rw [List.takeWhile_cons, List.takeWhile_cons, ← h.tag]
    split
    · rw [List.filter_cons, List.filter_cons, ← h.tag, ih]
      split
      · rename_i hg
        rw [h.whole (of_decide_eq_true hg) rfl]
      · rfl
    · rfl
  | _, _, .left n ns ns' h hs => by
    have ih := notes_list hs
    obtain ⟨h1, h2⟩ := inert_tag n h
    rw [List.takeWhile_cons, if_pos (by simpa using h1), List.filter_cons, if_neg (by simpa using h2), ih]
  | _, _, .right n ns ns' h hs => by
    have ih := notes_list hs
    obtain ⟨h1, h2⟩ := inert_tag n h
    rw [List.takeWhile_cons, if_pos (by simpa using h1), List.filter_cons, if_neg (by simpa using h2), ih]

theorem notesOf_alike {p p' : Option Node} (hp : OptAlike (formex pc.ns pc.calsNs) p p') : FmxP.notesOf pc p = FmxP.notesOf pc p' := by
  cases hp with
  | none => rfl
  | some q q' hq =>
    unfold FmxP.notesOf
    cases hq with
    | same => rfl
    | cell => rfl
    | inside _ _ _ _ _ _ _ _ _ _ _ _ hc => exact notes_list hc

theorem fmxEvent_alike {e e' : Event} (h : EventAlike (formex pc.ns pc.calsNs) e e') (blk : Nat) : FmxP.onEvent pc blk e = FmxP.onEvent pc blk e' := by
  obtain ⟨hs, hn, hp⟩ := h
  unfold FmxP.onEvent
  rw [hs]
  split
  · unfold FmxP.onStart
    rw [← hn.tag]
    cases ht : e.node.tag? with
    | none => rfl
    | some t =>
      simp only
      split
      · rename_i h1
        rw [fmxCell_alike hp hn ht (by rw [h1]; simp [formex, FmxP.Config.f])]
      · split
        · unfold FmxP.parseRow FmxP.rowStyles
          simp only [attr_formex hn (show "TYPE" ∈ _ by simp), calsRowStyles_alike hn]
        · split
          · rfl
          · split
            · rename_i h1
              rw [title_alike hn ht (by rw [h1]; simp [formex, FmxP.Config.f])]
            · split
              · rename_i h1
                rw [title_alike hn ht (by rw [h1]; simp [formex, FmxP.Config.f])]
              · split
                · rw [fmxColspec_alike hn]
                · split
                  · rw [corpus_alike hp hn]
                  · rfl
  · unfold FmxP.onEnd FmxP.endCorpus
    rw [hn.tag, notesOf_alike hp]

theorem fmxLoop_alike {es es' : List Event} (h : List.Forall₂ (EventAlike (formex pc.ns pc.calsNs)) es es') :
    ∀ d blk, FmxP.loop pc d blk es = FmxP.loop pc d blk es' := by
  induction h with
  | nil => intro d blk; rfl
  | @cons e e' es es' he _ ih =>
    intro d blk
    have hd : FmxP.newDepth pc d e = FmxP.newDepth pc d e' := by
      unfold FmxP.newDepth
      rw [he.node.tag, he.start]
    have hb : FmxP.newBlk pc blk e = FmxP.newBlk pc blk e' := by
      unfold FmxP.newBlk
      rw [he.node.tag, he.start]
    simp only [FmxP.loop, hd, hb, fmxEvent_alike he, ih]

end
end Benker.DocSpec
