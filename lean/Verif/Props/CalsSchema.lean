import Verif.Lemmas.CalsSchema
import Verif.Props.Conversion

/-! C108: the generated CALS tables and the schema of CALS tables. -/

namespace Benker.CalsSchema
open Cals CalsSpec PyM Shown FmxSpec

/-! ### the order of the groups -/

theorem runs_groupBy (rows : List (View Content)) : (groupBy (fun r : View Content => r.nature) rows).map groupNature = runs (rows.map (·.nature)) := by
  induction rows with
  | nil => rfl
  | cons r rows ih =>
    have hf := groupBy_flatten (fun r : View Content => r.nature) rows
    have hc := groupBy_const (fun r : View Content => r.nature) rows
    cases rows with
    | nil => rfl
    | cons r' rows =>
      unfold groupBy
      revert ih hf hc
      generalize groupBy (fun r : View Content => r.nature) (r' :: rows) = G
      intro ih hf hc
      match G with
      | [] => simp at hf
      | [] :: rest => exact absurd rfl (hc [] (by simp)).1
      | (y :: ys) :: rest =>
        have hy : y = r' := by simp at hf; exact hf.1
        subst hy
        dsimp only
        simp only [List.map_cons, groupNature] at ih
        simp only [List.map_cons, runs]
        split
        · rename_i e
          simp only [List.map_cons, groupNature]
          rw [e, ih]
        · simp only [List.map_cons, groupNature]
          rw [ih]

/-- place of a tag in the two orders of the schema -/
def tagRank (order : List String) (tag : String) : Nat := order.findIdx (· == tag)

theorem sorted_three {a b c : String} (hab : a ≠ b) (hac : a ≠ c) (hbc : b ≠ c) (l : List String) (hm : ∀ x ∈ l, x = a ∨ x = b ∨ x = c)
    (hs : l.Pairwise (fun x y => tagRank [a, b, c] x ≤ tagRank [a, b, c] y)) :
    l = List.replicate (l.count a) a ++ List.replicate (l.count b) b ++ List.replicate (l.count c) c := by
  have ra : tagRank [a, b, c] a = 0 := by simp [tagRank, List.findIdx_cons]
  have rb : tagRank [a, b, c] b = 1 := by simp [tagRank, List.findIdx_cons, beq_false_of_ne hab]
  have rc : tagRank [a, b, c] c = 2 := by simp [tagRank, List.findIdx_cons, beq_false_of_ne hac, beq_false_of_ne hbc]
  induction l with
  | nil => rfl
  | cons x l ih =>
    rw [List.pairwise_cons] at hs
    have ih := ih (fun y hy => hm y (List.mem_cons_of_mem _ hy)) hs.2
    rcases hm x (by simp) with rfl | rfl | rfl
    · rw [List.count_cons_self, List.count_cons_of_ne (by simpa using hab), List.count_cons_of_ne (by simpa using hac), List.replicate_succ, List.cons_append, List.cons_append, ← ih]
    · have h0 : l.count a = 0 := List.count_eq_zero.mpr (fun h => by have := hs.1 _ h; rw [ra, rb] at this; omega)
      rw [h0] at ih
      rw [List.count_cons_self, List.count_cons_of_ne (by simpa using hab.symm), List.count_cons_of_ne (by simpa using hbc), h0, List.replicate_succ]
      simp only [List.replicate_zero, List.nil_append] at ih ⊢
      rw [List.cons_append, ← ih]
    · have h0 : l.count a = 0 := List.count_eq_zero.mpr (fun h => by have := hs.1 _ h; rw [ra, rc] at this; omega)
      have h1 : l.count b = 0 := List.count_eq_zero.mpr (fun h => by have := hs.1 _ h; rw [rb, rc] at this; omega)
      rw [h0, h1] at ih
      rw [List.count_cons_self, List.count_cons_of_ne (by simpa using hac.symm), List.count_cons_of_ne (by simpa using hbc.symm), h0, h1, List.replicate_succ]
      simp only [List.replicate_zero, List.nil_append] at ih ⊢
      rw [← ih]

theorem ordered_iff (l : List String) (hm : ∀ x ∈ l, x = "thead" ∨ x = "tfoot" ∨ x = "tbody")
    (hs : l.Pairwise (fun x y => tagRank ["thead", "tfoot", "tbody"] x ≤ tagRank ["thead", "tfoot", "tbody"] y) ∨
      l.Pairwise (fun x y => tagRank ["thead", "tbody", "tfoot"] x ≤ tagRank ["thead", "tbody", "tfoot"] y)) :
    l ∈ orders ↔ l.count "thead" ≤ 1 ∧ l.count "tfoot" ≤ 1 ∧ l.count "tbody" = 1 := by
  constructor
  · intro h
    simp only [orders, List.mem_cons, List.not_mem_nil, or_false] at h
    rcases h with rfl | rfl | rfl | rfl | rfl | rfl | rfl | rfl
    · decide
    · decide
    · decide
    · decide
    · decide
    · decide
    · rcases hs with hs | hs
      · exact absurd hs (by decide)
      · exact absurd hs (by decide)
    · rcases hs with hs | hs
      · exact absurd hs (by decide)
      · exact absurd hs (by decide)
  · rintro ⟨h1, h2, h3⟩
    have e1 : l.count "thead" = 0 ∨ l.count "thead" = 1 := by omega
    have e2 : l.count "tfoot" = 0 ∨ l.count "tfoot" = 1 := by omega
    rcases hs with hs | hs
    · rw [sorted_three (by decide) (by decide) (by decide) l hm hs, h3]
      rcases e1 with e1 | e1 <;> rcases e2 with e2 | e2 <;> rw [e1, e2] <;> decide
    · rw [sorted_three (by decide) (by decide) (by decide) l (fun x hx => by rcases hm x hx with h | h | h <;> simp [h]) hs, h3]
      rcases e1 with e1 | e1 <;> rcases e2 with e2 | e2 <;> rw [e1, e2] <;> decide

theorem tag_rank {cfg : Config} (hcfg : cfg.tgroupSorting = ["header", "footer", "body"]) (n : Option String) :
    rank cfg n = tagRank ["thead", "tfoot", "tbody"] (groupTag n) := by
  unfold rank groupTag
  rw [hcfg]
  have e : sortingDict ["header", "footer", "body"] = [("header", 0), ("footer", 1), ("body", 2)] := by decide
  dsimp only
  rw [e]
  cases n with
  | none => decide
  | some n =>
    simp only [Dict.get?_cons, Option.some.injEq]
    by_cases h1 : n = "header"
    · subst h1; decide
    · by_cases h2 : n = "footer"
      · subst h2; decide
      · by_cases h3 : n = "body"
        · subst h3; decide
        · rw [if_neg (Ne.symm h1), if_neg (Ne.symm h2), if_neg (Ne.symm h3), if_neg h1, if_neg h2, Dict.get?_nil]; decide

theorem tag_rank' {cfg : Config} (hcfg : cfg.tgroupSorting = ["header", "body", "footer"]) (n : Option String) :
    rank cfg n = tagRank ["thead", "tbody", "tfoot"] (groupTag n) := by
  unfold rank groupTag
  rw [hcfg]
  have e : sortingDict ["header", "body", "footer"] = [("header", 0), ("body", 1), ("footer", 2)] := by decide
  dsimp only
  rw [e]
  cases n with
  | none => decide
  | some n =>
    simp only [Dict.get?_cons, Option.some.injEq]
    by_cases h1 : n = "header"
    · subst h1; decide
    · by_cases h2 : n = "footer"
      · subst h2; decide
      · by_cases h3 : n = "body"
        · subst h3; decide
        · rw [if_neg (Ne.symm h1), if_neg (Ne.symm h2), if_neg (Ne.symm h3), if_neg h1, if_neg h2, Dict.get?_nil]; decide

theorem groupTag_mem (n : Option String) : groupTag n = "thead" ∨ groupTag n = "tfoot" ∨ groupTag n = "tbody" := by
  unfold groupTag
  split
  · simp
  · split <;> simp

theorem count_tags (l : List (Option String)) : (l.map groupTag).count "thead" = l.count (some "header") ∧ (l.map groupTag).count "tfoot" = l.count (some "footer") ∧
    (l.map groupTag).count "tbody" = (l.filter (fun n => n ≠ some "header" ∧ n ≠ some "footer")).length := by
  induction l with
  | nil => simp
  | cons n l ih =>
    obtain ⟨i1, i2, i3⟩ := ih
    unfold groupTag at i1 i2 i3 ⊢
    by_cases h1 : n = some "header"
    · subst h1
      refine ⟨?_, ?_, ?_⟩ <;> simp [List.count_cons, i1, i2] <;> simpa using i3
    · by_cases h2 : n = some "footer"
      · subst h2
        refine ⟨?_, ?_, ?_⟩ <;> simp [List.count_cons, i1, i2] <;> simpa using i3
      · refine ⟨?_, ?_, ?_⟩ <;> simp [List.count_cons, h1, h2, i1, i2] <;> simpa using i3

/-! ### C108 -/

/-- the rows of these natures make at most one `thead`, at most one `tfoot` and exactly one `tbody`: the rows of the header follow each other, those of
the footer too, and all the others have one nature, follow each other, and there is one of them at least -/
def OneOfEach (natures : List (Option String)) : Prop :=
  (runs natures).count (some "header") ≤ 1 ∧ (runs natures).count (some "footer") ≤ 1 ∧
    ((runs natures).filter (fun n => n ≠ some "header" ∧ n ≠ some "footer")).length = 1

theorem rows_eq {t : Table Content} (ht : t.Inv) {rows : List (View Content)} (hrows : eval (Table.views .row) t = .ok rows) :
    rows = t.baseViews .row := by
  unfold eval at hrows; rw [Table.views_run .row t ht.grid] at hrows; cases hrows; rfl

theorem mem_of_get {d : Dict QName String} {k : QName} {v : String} (h : Dict.get? d k = some v) : (k, v) ∈ d := by
  induction d with
  | nil => simp at h
  | cons p d ih =>
    obtain ⟨k', v'⟩ := p
    rw [Dict.get?_cons] at h
    split at h
    · rename_i e; cases h; subst e; simp
    · exact List.mem_cons_of_mem _ (ih h)

theorem cols_mem {cfg : Config} {t : Table Content} {n : Nat} {a : Dict QName String} (ha : tgroupAttrs cfg t n = .ok a) : (⟨cfg.ns, "cols"⟩, intStr n) ∈ a := by
  refine mem_of_get (?_ : Dict.get? a (cfg.q "cols") = _)
  unfold tgroupAttrs at ha
  simp only at ha
  split at ha
  · obtain ⟨s1, _, ha⟩ := bind_ok ha
    obtain ⟨s2, _, ha⟩ := bind_ok ha
    cases ha
    split
    · rw [set_get_ne _ _ (by decide), set_get_ne _ _ (by decide), set_get_ne _ _ (by decide)]; simp [Dict.get?_cons]
    · rw [set_get_ne _ _ (by decide), set_get_ne _ _ (by decide)]; simp [Dict.get?_cons]
  · cases ha; simp [Dict.get?_cons]

theorem groups_ok {cfg : Config} {bb : Option Box} {rows : List (View Content)} {bodies : List Node} (entries : List Node → Prop)
    (h : All₂ (fun g body => ∃ colsep rowsep, buildTbody cfg colsep rowsep bb (groupTag (groupNature g)) g = .ok body) (rowGroups cfg rows) bodies)
    (he : ∀ r ∈ rows, ∀ es : List Node, es.length = r.owned.length → entries es) : ∀ b ∈ bodies, IsGroup cfg.ns entries b := by
  intro b hb
  obtain ⟨g, hg, colsep, rowsep, h⟩ := h.mem_right hb
  obtain ⟨g1, g2, _⟩ := rowGroups_spec cfg rows
  have mem : ∀ r ∈ g, r ∈ rows := fun r hr => g2.mem_iff.mp (List.mem_flatten.mpr ⟨g, hg, hr⟩)
  obtain ⟨nodes, rfl, h1, h2⟩ := group_ok h
  refine ⟨groupTag (groupNature g), [], nodes, by have := groupTag_mem (groupNature g); simpa using this, rfl, attributes_nil _ _, ?_, ?_⟩
  · intro c hc
    rcases h1 c hc with h | ⟨r, hr, a, es, k1, k2, k3, rfl⟩
    · exact .inr h
    · exact .inl ⟨a, es, rfl, k1, k2, he r (mem r hr) es k3⟩
  · obtain ⟨r, hr⟩ := List.exists_mem_of_ne_nil g (g1 g hg).1
    obtain ⟨c, hc, a, es, k1, k2, k3, rfl⟩ := h2 r hr
    exact ⟨_, hc, a, es, rfl, k1, k2, he r (mem r hr) es k3⟩

theorem bodies_tags {cfg : Config} {bb : Option Box} {rows : List (View Content)} {bodies : List Node}
    (h : All₂ (fun g body => ∃ colsep rowsep, buildTbody cfg colsep rowsep bb (groupTag (groupNature g)) g = .ok body) (rowGroups cfg rows) bodies) :
    bodies.map (fun g => (g.tag?.map (·.name)).getD "") = (rowGroups cfg rows).map (fun g => groupTag (groupNature g)) := by
  refine ((h.imp ?_).map_eq).symm
  rintro g b ⟨colsep, rowsep, h⟩
  obtain ⟨nodes, rfl, _⟩ := group_ok h
  rfl

theorem tags_ordered {cfg : Config} (hcfg : cfg.tgroupSorting = ["header", "footer", "body"] ∨ cfg.tgroupSorting = ["header", "body", "footer"])
    (rows : List (View Content)) : (rowGroups cfg rows).map (fun g => groupTag (groupNature g)) ∈ orders ↔ OneOfEach (rows.map (·.nature)) := by
  have hp : ((rowGroups cfg rows).map (fun g => groupTag (groupNature g))).Perm ((runs (rows.map (·.nature))).map groupTag) := by
    rw [← runs_groupBy, List.map_map]
    exact (sortedBy_perm _ _).map _
  have hs := sortedBy_sorted (fun g => rank cfg (groupNature g)) (groupBy (fun r : View Content => r.nature) rows)
  obtain ⟨c1, c2, c3⟩ := count_tags (runs (rows.map (·.nature)))
  rw [ordered_iff, hp.count_eq, hp.count_eq, hp.count_eq, c1, c2, c3]
  · rfl
  · intro x hx
    obtain ⟨g, _, rfl⟩ := List.mem_map.mp hx
    exact groupTag_mem _
  · rcases hcfg with hcfg | hcfg
    · left
      rw [List.pairwise_map]
      refine List.Pairwise.imp ?_ hs
      intro a b hab
      rw [tag_rank hcfg, tag_rank hcfg] at hab
      omega
    · right
      rw [List.pairwise_map]
      refine List.Pairwise.imp ?_ hs
      intro a b hab
      rw [tag_rank' hcfg, tag_rank' hcfg] at hab
      omega

theorem vocabulary_inv {cfg : Config} {t : Table Content} (ht : t.Inv) {tree : Node} (h : eval (generate cfg) t = .ok tree) : Vocabulary cfg.ns tree := by
  obtain ⟨bb, _, he⟩ := generate_eq ht cfg
  rw [he] at h
  obtain ⟨attrs, tattrs, colspecs, bodies, rfl, h1, h2, h3, h4, h5⟩ := tree_ok h
  exact ⟨attrs, tattrs, colspecs, bodies, rfl, h1, h2, ⟨_, cols_mem h3⟩, h4, groups_ok _ h5 (fun _ _ _ _ => trivial), trivial⟩

/-- **C108, part proved**: whatever the table and the options, the generated tree only uses the elements and the attributes of the schema (and the
extensions of the documentation), at their places and with legal values. -/
theorem C108_vocabulary_partial (cfg : Config) (t : Table Content) (ht : t.Reachable) (tree : Node) (h : eval (generate cfg) t = .ok tree) :
    Vocabulary cfg.ns tree := vocabulary_inv ht.inv h

theorem split_unique {p : Node → Bool} {a b c d : List Node} (h : a ++ b = c ++ d) (ha : ∀ x ∈ a, p x = false) (hb : ∀ x ∈ b, p x = true)
    (hc : ∀ x ∈ c, p x = false) (hd : ∀ x ∈ d, p x = true) : b = d := by
  have := congrArg (List.filter p) h
  have fa : a.filter p = [] := List.filter_eq_nil_iff.mpr (fun x hx => by simp [ha x hx])
  have fc : c.filter p = [] := List.filter_eq_nil_iff.mpr (fun x hx => by simp [hc x hx])
  rw [List.filter_append, List.filter_append, fa, fc, List.filter_eq_self.mpr hb, List.filter_eq_self.mpr hd] at this
  simpa using this

theorem valid_inv {cfg : Config} (hcfg : cfg.tgroupSorting = ["header", "footer", "body"] ∨ cfg.tgroupSorting = ["header", "body", "footer"])
    {t : Table Content} (ht : t.Inv) {tree : Node} (h : eval (generate cfg) t = .ok tree)
    {rows : List (View Content)} (hrows : eval (Table.views .row) t = .ok rows) :
    Valid cfg.ns tree ↔ (∀ r ∈ rows, r.owned ≠ []) ∧ OneOfEach (rows.map (·.nature)) := by
  obtain ⟨bb, _, he⟩ := generate_eq ht cfg
  rw [he] at h
  rw [← rows_eq ht hrows] at h
  rw [← tags_ordered hcfg]
  obtain ⟨attrs, tattrs, colspecs, bodies, rfl, h1, h2, h3, h4, h5⟩ := tree_ok h
  rw [← bodies_tags h5]
  constructor
  · rintro ⟨attrs', tattrs', colspecs', groups, e, _, _, _, k1, k2, k3⟩
    have e' : colspecs ++ bodies = colspecs' ++ groups := by
      injection e with _ _ _ e _
      injection e with e _
      injection e
    let p : Node → Bool := fun n => (n.tag?.map (·.name)) != some "colspec"
    have hg : ∀ (ns : Option String) (es : List Node → Prop) (x : Node), IsGroup ns es x → p x = true := by
      rintro ns es x ⟨tag, a, c, ht, rfl, _⟩
      simp only [List.mem_cons, List.not_mem_nil, or_false] at ht
      rcases ht with rfl | rfl | rfl <;> rfl
    have hc : ∀ (ns : Option String) (x : Node), IsColspec ns x → p x = false := by
      rintro ns x ⟨a, rfl, _⟩; rfl
    have : bodies = groups := split_unique (p := p) e' (fun x hx => hc _ x (h4 x hx))
      (fun x hx => hg _ _ x (groups_ok (fun _ => True) h5 (fun _ _ _ _ => trivial) x hx)) (fun x hx => hc _ x (k1 x hx)) (fun x hx => hg _ _ x (k2 x hx))
    subst this
    refine ⟨?_, k3⟩
    intro r hr
    obtain ⟨_, g2, _⟩ := rowGroups_spec cfg rows
    obtain ⟨g, hg, hr⟩ := List.mem_flatten.mp (g2.mem_iff.mpr hr)
    obtain ⟨b, hb, colsep, rowsep, hbuild⟩ := h5.mem_left hg
    obtain ⟨nodes, rfl, _, m2⟩ := group_ok hbuild
    obtain ⟨c, hc, a, es, _, _, m3, rfl⟩ := m2 r hr
    obtain ⟨tag, a', ch, _, e, _, m4, _⟩ := k2 _ hb
    injection e with _ _ _ e _
    subst e
    rcases m4 _ hc with ⟨a'', es', e, _, _, m5⟩ | ⟨_, _, e⟩
    · injection e with _ _ _ e _
      subst e
      intro h0
      rw [h0] at m3
      exact m5 (List.length_eq_zero_iff.mp m3)
    · cases e
  · rintro ⟨k1, k2⟩
    refine ⟨attrs, tattrs, colspecs, bodies, rfl, h1, h2, ⟨_, cols_mem h3⟩, h4, groups_ok _ h5 ?_, k2⟩
    intro r hr es hes h0
    subst h0
    exact k1 r hr (List.length_eq_zero_iff.mp hes.symm)

/-- **C108, part proved**: with the sorting of the documentation (footers before or after the body), the generated tree is valid for the schema exactly if
a cell starts in each row of the table, and the natures of the rows make one body, at most one header and at most one footer. -/
theorem C108_valid_partial (cfg : Config) (hcfg : cfg.tgroupSorting = ["header", "footer", "body"] ∨ cfg.tgroupSorting = ["header", "body", "footer"])
    (t : Table Content) (ht : t.Reachable) (tree : Node) (h : eval (generate cfg) t = .ok tree)
    (rows : List (View Content)) (hrows : eval (Table.views .row) t = .ok rows) :
    Valid cfg.ns tree ↔ (∀ i : Nat, i < rows.length → ∃ c ∈ t.cells, c.min.y = (i : Int) + 1) ∧ OneOfEach (rows.map (·.nature)) := by
  rw [valid_inv hcfg ht.inv h hrows]
  have hd := Table.base_describes ht.inv .row
  rw [← rows_eq ht.inv hrows] at hd
  have howned : (∀ i : Nat, i < rows.length → ∃ c ∈ t.cells, c.min.y = (i : Int) + 1) ↔ ∀ r ∈ rows, r.owned ≠ [] := by
    constructor
    · intro hc r hr
      obtain ⟨i, hi, rfl⟩ := List.getElem_of_mem hr
      obtain ⟨c, hc, e⟩ := hc i hi
      refine List.ne_nil_of_mem ((hd.owned _ hr c).mpr ⟨hc, ?_⟩)
      unfold StartsIn; rw [hd.pos i hi]; exact e
    · intro hr i hi
      obtain ⟨c, hc⟩ := List.exists_mem_of_ne_nil _ (hr _ (List.getElem_mem hi))
      obtain ⟨h1, h2⟩ := (hd.owned _ (List.getElem_mem hi) c).mp hc
      refine ⟨c, h1, ?_⟩
      unfold StartsIn at h2; rw [hd.pos i hi] at h2; exact h2
  rw [howned]

/-! ### documents -/

/-- **C108, part proved**, Formex to CALS: whatever the Formex table, its conversion only uses the elements and the attributes of the schema. -/
theorem C108_formex_vocabulary_partial (c : Fmx2Cals.Config) (outer : Nat) (parent : Option Node) (n : Node) (tree : Node)
    (hconv : Fmx2Cals.convert c outer parent n = .ok tree) : Vocabulary c.builder.ns tree := by
  unfold Fmx2Cals.convert Convert.thenGenerate at hconv
  cases hp : FmxP.parseTable c.parser outer parent n PState.init with
  | mk r s =>
    unfold eval at hconv
    rw [hp] at hconv
    cases r with
    | error e => cases hconv
    | ok r =>
      cases r with
      | none => cases hconv
      | some t => exact vocabulary_inv (inv_map _ (FmxP.parsed_reachable hp).inv) hconv

/-- **C108, part proved**, Word to CALS: whatever the Word table, its conversion only uses the elements and the attributes of the schema. -/
theorem C108_word_vocabulary_partial (cfg : Ooxml.Config) (bc : Cals.Config) (following : List Node) (tbl : Node) (tree : Node)
    (hconv : (Convert.ooxml2cals cfg bc).convert following tbl = .ok tree) : Vocabulary bc.ns tree := by
  unfold Convert.ooxml2cals Convert.thenGenerate at hconv
  simp only at hconv
  cases hp : Ooxml.parseTable cfg (Convert.firstSectList following) tbl PState.init with
  | mk r s =>
    unfold eval at hconv
    rw [hp] at hconv
    cases r with
    | error e => cases hconv
    | ok r =>
      cases r with
      | none => cases hconv
      | some t => exact vocabulary_inv (Ooxml.parsed_reachable hp).inv hconv

theorem rows_of_picture {p : Picture} {rows : List (View Content)} (h : TableShows p rows) :
    ((∀ r ∈ rows, r.owned ≠ []) ↔ ∀ l ∈ p, l.cells ≠ []) ∧ rows.map (·.nature) = p.map (fun l => some l.kind) := by
  refine ⟨⟨fun hr l hl e => ?_, fun hl r hr e => ?_⟩, (All₂.map_eq (h.imp (fun _ _ h => h.1.symm))).symm⟩
  · obtain ⟨r, hr', _, h2⟩ := All₂.mem_left h hl
    rw [e] at h2
    exact hr r hr' (List.length_eq_zero_iff.mp h2.length.symm)
  · obtain ⟨l, hl', _, h2⟩ := All₂.mem_right h hr
    rw [e] at h2
    exact hl l hl' (List.length_eq_zero_iff.mp h2.length)

/-- **C108, part proved**, Word to CALS: the conversion of a Word table whose rows fill the same columns is valid for the schema exactly if each row has a
cell which does not continue one of the row above, there is a row which is not a header, and the header rows follow each other, as well as the others. -/
theorem C108_word_to_cals_partial (cfg : Ooxml.Config) (bc : Cals.Config)
    (hcfg : bc.tgroupSorting = ["header", "footer", "body"] ∨ bc.tgroupSorting = ["header", "body", "footer"])
    (following : List Node) (styles : Node → Styles) (nature : Node → String) (W : Nat) (tbl : Node)
    (h : OoxmlSpec.GoodTable cfg (Convert.firstSectList following) styles nature W tbl) (hne : OoxmlSpec.kids ["tr"] tbl ≠ [])
    (tree : Node) (hconv : (Convert.ooxml2cals cfg bc).convert following tbl = .ok tree) :
    Valid bc.ns tree ↔ (∀ l ∈ wordPicture tbl, l.cells ≠ []) ∧ OneOfEach ((wordPicture tbl).map (fun l => some l.kind)) := by
  obtain ⟨t, s', rows, cols, h1, h2, h3, h4, h5, hi, h6, h7, h8, h9, h10⟩ := word_shows cfg _ styles nature W tbl h hne PState.init
  unfold Convert.ooxml2cals Convert.thenGenerate at hconv
  simp only at hconv
  have e : eval (Ooxml.parseTable cfg (Convert.firstSectList following) tbl) PState.init = .ok (some t) := by unfold eval; rw [h1]
  rw [e] at hconv
  rw [valid_inv hcfg hi hconv h2, (rows_of_picture h10).1, (rows_of_picture h10).2]

/-- **C108, part proved**, Formex to CALS: the conversion of a Formex table which is drawn on a grid is valid for the schema exactly if each line draws
something which does not come from a line above, and the kinds of the lines make one body, at most one header and at most one footer. -/
theorem C108_formex_to_cals_partial (c : Fmx2Cals.Config)
    (hcfg : c.builder.tgroupSorting = ["header", "footer", "body"] ∨ c.builder.tgroupSorting = ["header", "body", "footer"])
    (d : FmxDoc) (w h outer : Nat) (parent : Option Node) (hn : d.Nested c.parser.ns c.parser.calsNs outer parent) (hd : d.Drawn c.parser.ns c.parser.calsNs w h)
    (hk : d.WidthKnown w) (hc : d.Columns c.parser.calsNs w) (ha : FrameAccepted c.parser.calsNs d.corpus)
    (tree : Node) (hconv : Fmx2Cals.convert c outer parent d.corpus = .ok tree) :
    Valid c.builder.ns tree ↔ (∀ l ∈ d.all, l.drawn ≠ []) ∧ OneOfEach (d.all.map (fun l => some (l.kind c.parser.ns))) := by
  obtain ⟨t, rows, cols, h1, h2, h3, rfl, rfl, hcells, hrows, _⟩ := C76_reading d w h outer parent hn hd hk hc ha PState.init
  have hparsed : ParsedTable t := .formex c.parser outer parent d.corpus PState.init t hn.corpus h1
  have hi : t.Inv := hparsed.tidy.1.inv
  have hord := (C80_rows t hparsed rows h2).1
  have hr := views_eq hi h2
  have hdr : Describes .row t.grid.cells rows := by rw [hr]; exact Table.base_describes hi .row
  have hown := owned_eq hi hdr hord.leftToRight
  unfold Fmx2Cals.convert Convert.thenGenerate at hconv
  rw [h1] at hconv
  have hlines : All₂ (fun (l : DocLine) r => All₂ (fun e c' => c'.box = e.2.2 ∧ FmxSpec.Shown c.parser.ns c.parser.calsNs c.parser.embedGrNotes e.1 e.2.1 c')
      (l.drawn.map (fun e => (l, e))) r.owned) d.all rows := by
    refine all₂_unflat (fun l : DocLine => l.drawn.map (fun e => (l, e))) (fun r : View Content => r.owned) (fun e => e.2.2.min.y) (fun c' => c'.box.min.y)
      (fun a b hab => by rw [hab.1]) d.all rows 1 hd.height ?_ ?_ ?_
    · intro i l hl e he
      obtain ⟨e, he', rfl⟩ := List.mem_map.mp he
      have := hd.starts i l hl e he'
      simp only
      omega
    · intro i r hr c' hc'
      obtain ⟨hlt, rfl⟩ := List.getElem?_eq_some_iff.mp hr
      have e1 : c'.box.min.y = rows[i].pos := ((hdr.owned _ (List.getElem_mem hlt) c').mp hc').2
      have e2 := hdr.pos i hlt
      omega
    · rw [show rows.flatMap (fun r => r.owned) = t.grid.cells from hown]
      exact hcells
  have hlen : All₂ (fun (l : DocLine) (r : View Content) => l.drawn.length = r.owned.length) d.all rows := by
    refine hlines.imp ?_
    intro l r hall
    have := hall.length
    rwa [List.length_map] at this
  rw [valid_inv hcfg (inv_map _ hi) hconv (eval_views_map _ h2)]
  have e1 : (rows.map (View.mapContent (Fmx2Cals.stripContent c.parser))).map (·.nature) = d.all.map (fun l => some (l.kind c.parser.ns)) := by
    rw [List.map_map]
    exact (All₂.map_eq (f := fun l : DocLine => some (l.kind c.parser.ns)) (g := fun r : View Content => r.nature) (hrows.imp (fun _ _ h => h.1.symm))).symm
  rw [e1]
  refine and_congr_left (fun _ => ⟨fun hr l hl e => ?_, fun hl r hr e => ?_⟩)
  · obtain ⟨r, hr', h2⟩ := hlen.mem_left hl
    rw [e] at h2
    refine hr _ (List.mem_map_of_mem hr') ?_
    show r.owned.map _ = []
    rw [List.length_eq_zero_iff.mp h2.symm, List.map_nil]
  · obtain ⟨r, hr', rfl⟩ := List.mem_map.mp hr
    obtain ⟨l, hl', h2⟩ := hlen.mem_right hr'
    have e' : r.owned.map (Cell.mapContent (Fmx2Cals.stripContent c.parser)) = [] := e
    rw [List.map_eq_nil_iff.mp e'] at h2
    exact hl l hl' (List.length_eq_zero_iff.mp h2)

/-! ### examples and counterexamples -/

instance (l : List (Option String)) : Decidable (OneOfEach l) := by unfold OneOfEach; infer_instance

/-- a table whose first row is a header and last row a footer, around two rows of the body -/
def schemaDemo : Table Content :=
  Table.runFrom ⟨[], none, ⟨[]⟩, none, none⟩
    [.grid (.set (.tuple [.int 1, .int 1]) ⟨some (.text "a"), none, none, 1, 1, 1, 1⟩),
     .grid (.set (.tuple [.int 1, .int 2]) ⟨some (.text "b"), none, none, 1, 1, 1, 1⟩),
     .grid (.set (.tuple [.int 1, .int 3]) ⟨some (.text "c"), none, none, 1, 1, 1, 1⟩),
     .grid (.set (.tuple [.int 1, .int 4]) ⟨some (.text "d"), none, none, 1, 1, 1, 1⟩),
     .access .row, .setNature .row 1 (some "header"), .setNature .row 2 (some "body"), .setNature .row 3 (some "body"), .setNature .row 4 (some "footer")]

theorem schemaDemo_reachable : schemaDemo.Reachable := ⟨[], none, none, _, _, by simp, rfl, rfl⟩

theorem views_of {t : Table Content} (ht : t.Reachable) : eval (Table.views .row) t = .ok (t.baseViews .row) := by
  rw [eval, Table.views_run .row t ht.inv.grid]

/-- the computation succeeds -/
def succeeds {α : Type} : Except PyErr α → Bool
  | .ok _ => true
  | .error _ => false

theorem ok_of_isOk {α : Type} {x : Except PyErr α} (h : succeeds x = true) : ∃ a, x = .ok a := by
  cases x with
  | ok a => exact ⟨a, rfl⟩
  | error e => cases h

/-- a valid tree: the hypotheses of C108 are met, and both sides hold -/
example : calsConfig.tgroupSorting = ["header", "footer", "body"] ∧ schemaDemo.Reachable ∧ ∃ tree, eval (generate calsConfig) schemaDemo = .ok tree ∧ Valid none tree := by
  refine ⟨rfl, schemaDemo_reachable, ?_⟩
  obtain ⟨tree, h⟩ := ok_of_isOk (x := eval (generate calsConfig) schemaDemo) (by decide +kernel)
  refine ⟨tree, h, (C108_valid_partial calsConfig (.inl rfl) schemaDemo schemaDemo_reachable tree h _ (views_of schemaDemo_reachable)).mpr ⟨?_, by decide +kernel⟩⟩
  have : ∀ i ∈ List.range (schemaDemo.baseViews .row).length, ∃ c ∈ schemaDemo.cells.map (fun c => c.min.y), c = (i : Int) + 1 := by decide +kernel
  intro i hi
  obtain ⟨y, hy, e⟩ := this i (List.mem_range.mpr hi)
  obtain ⟨c, hc, rfl⟩ := List.mem_map.mp hy
  exact ⟨c, hc, e⟩

theorem invalid_of {t : Table Content} (ht : t.Reachable) (hn : ¬ ((∀ i ∈ List.range (t.baseViews .row).length, ((i : Int) + 1) ∈ t.cells.map (fun c => c.min.y)) ∧
    OneOfEach ((t.baseViews .row).map (·.nature)))) (h : succeeds (eval (generate calsConfig) t) = true) :
    ∃ tree, eval (generate calsConfig) t = .ok tree ∧ ¬ Valid calsConfig.ns tree := by
  obtain ⟨tree, h⟩ := ok_of_isOk h
  refine ⟨tree, h, fun hv => hn ?_⟩
  obtain ⟨h1, h2⟩ := (C108_valid_partial calsConfig (.inl rfl) t ht tree h _ (views_of ht)).mp hv
  refine ⟨?_, h2⟩
  intro i hi
  obtain ⟨c, hc, e⟩ := h1 i (List.mem_range.mp hi)
  exact List.mem_map.mpr ⟨c, hc, e⟩

/-- **C108 is false of the code**: the table made of one cell on two rows, which is filled, has a row without entry, which the schema does not allow. -/
theorem C108_row_counterexample : ∃ t : Table Content, t.Reachable ∧ t.cells.map (fun c => (c.min.x, c.min.y, c.max.x, c.max.y)) = [(1, 1, 1, 2)] ∧
    ∃ tree, eval (generate calsConfig) t = .ok tree ∧ ¬ Valid calsConfig.ns tree := by
  refine ⟨Table.runFrom ⟨[], none, ⟨[]⟩, none, none⟩ [.grid (.set (.tuple [.int 1, .int 1]) ⟨some (.text "a"), none, none, 1, 1, 1, 2⟩)],
    ⟨[], none, none, _, _, by simp, rfl, rfl⟩, by decide +kernel, ?_⟩
  exact invalid_of ⟨[], none, none, _, _, by simp, rfl, rfl⟩ (by decide +kernel) (by decide +kernel)

/-- **C108 is false of the code**: a table which only has header rows is written without `tbody`, which the schema asks for. -/
theorem C108_header_counterexample : ∃ t : Table Content, t.Reachable ∧ (t.baseViews .row).map (·.nature) = [some "header"] ∧
    ∃ tree, eval (generate calsConfig) t = .ok tree ∧ ¬ Valid calsConfig.ns tree := by
  refine ⟨Table.runFrom ⟨[], none, ⟨[]⟩, none, none⟩ [.grid (.set (.tuple [.int 1, .int 1]) ⟨some (.text "a"), none, none, 1, 1, 1, 1⟩), .access .row,
    .setNature .row 1 (some "header")], ⟨[], none, none, _, _, by simp, rfl, rfl⟩, by decide +kernel, ?_⟩
  exact invalid_of ⟨[], none, none, _, _, by simp, rfl, rfl⟩ (by decide +kernel) (by decide +kernel)

/-- **C108 is false of the code**: when rows of the body are on both sides of a header row, the table is written with two `tbody`, where the schema allows
one. -/
theorem C108_order_counterexample : ∃ t : Table Content, t.Reachable ∧ (t.baseViews .row).map (·.nature) = [some "body", some "header", some "body"] ∧
    ∃ tree, eval (generate calsConfig) t = .ok tree ∧ ¬ Valid calsConfig.ns tree := by
  refine ⟨Table.runFrom ⟨[], none, ⟨[]⟩, none, none⟩
    [.grid (.set (.tuple [.int 1, .int 1]) ⟨some (.text "a"), none, none, 1, 1, 1, 1⟩),
     .grid (.set (.tuple [.int 1, .int 2]) ⟨some (.text "b"), none, none, 1, 1, 1, 1⟩),
     .grid (.set (.tuple [.int 1, .int 3]) ⟨some (.text "c"), none, none, 1, 1, 1, 1⟩),
     .access .row, .setNature .row 1 (some "body"), .setNature .row 2 (some "header"), .setNature .row 3 (some "body")],
    ⟨[], none, none, _, _, by simp, rfl, rfl⟩, by decide +kernel, ?_⟩
  exact invalid_of ⟨[], none, none, _, _, by simp, rfl, rfl⟩ (by decide +kernel) (by decide +kernel)

/-- the demonstration documents are converted to valid tables -/
example : ∃ (c : Fmx2Cals.Config) (tree : Node), c.builder.tgroupSorting = ["header", "footer", "body"] ∧
    fmxDemo.Nested c.parser.ns c.parser.calsNs 0 (some fmxTbl) ∧ fmxDemo.Drawn c.parser.ns c.parser.calsNs 3 5 ∧ fmxDemo.WidthKnown 3 ∧
    fmxDemo.Columns c.parser.calsNs 3 ∧ FrameAccepted c.parser.calsNs fmxDemo.corpus ∧
    Fmx2Cals.convert c 0 (some fmxTbl) fmxDemo.corpus = .ok tree ∧ Valid c.builder.ns tree := by
  obtain ⟨tree, ht⟩ := ok_of (show (Fmx2Cals.convert ⟨⟨none, some "c", true⟩, calsConfig⟩ 0 (some fmxTbl) fmxDemo.corpus).isOk = true by decide +kernel)
  have hw : fmxDemo.WidthKnown 3 := fun _ _ _ _ => .inl ⟨⟨fmxC1, 3⟩, by simp [fmxDemo], rfl⟩
  have ha : FrameAccepted (some "c") fmxDemo.corpus := by intro f hf _; cases hf; decide
  refine ⟨⟨⟨none, some "c", true⟩, calsConfig⟩, tree, rfl, fmxDemo_nested, fmxDemo_drawn, hw, fmxDemo_columns, ha, ht, ?_⟩
  refine (C108_formex_to_cals_partial ⟨⟨none, some "c", true⟩, calsConfig⟩ (.inl rfl) fmxDemo 3 5 0 (some fmxTbl) fmxDemo_nested fmxDemo_drawn hw fmxDemo_columns ha tree ht).mpr
    ⟨?_, by decide +kernel⟩
  have : ∀ n ∈ fmxDemo.all.map (fun l => l.drawn.length), n ≠ 0 := by decide +kernel
  intro l hl e
  exact this _ (List.mem_map_of_mem hl) (by rw [e]; rfl)

example : ∃ tree, OoxmlSpec.GoodTable wConfig (Convert.firstSectList []) Ooxml.stylesOf Ooxml.natureOf 3 wordMerge ∧ OoxmlSpec.kids ["tr"] wordMerge ≠ [] ∧
    (Convert.ooxml2cals wConfig calsConfig).convert [] wordMerge = .ok tree ∧ Valid calsConfig.ns tree := by
  obtain ⟨tree, ht⟩ := ok_of (show ((Convert.ooxml2cals wConfig calsConfig).convert [] wordMerge).isOk = true by decide +kernel)
  have hk : OoxmlSpec.kids ["tr"] wordMerge ≠ [] := by
    intro e
    have : (OoxmlSpec.kids ["tr"] wordMerge).length = 4 := by decide +kernel
    rw [e] at this; cases this
  refine ⟨tree, wordMerge_good, hk, ht, ?_⟩
  refine (C108_word_to_cals_partial wConfig calsConfig (.inl rfl) [] _ _ 3 wordMerge wordMerge_good hk tree ht).mpr ⟨?_, by decide +kernel⟩
  have : ∀ n ∈ (wordPicture wordMerge).map (fun l => l.cells.length), n ≠ 0 := by decide +kernel
  intro l hl e
  exact this _ (List.mem_map_of_mem hl) (by rw [e]; rfl)

end Benker.CalsSchema
