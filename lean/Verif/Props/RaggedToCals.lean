import Verif.Spec.RaggedPicture
import Verif.Props.FormexRagged
import Verif.Props.RaggedToFormex
import Verif.Props.Conversion

/-! C110: Formex tables with unequal rows are completed by the conversion to CALS. -/

namespace Benker
open PyM CalsSpec FmxSpec Benker.Shown

/-- **C110**, Formex to CALS: a Formex table whose rows have not all the same length is completed by the conversion: if it succeeds, its result is a CALS table drawn on
a grid, of all the columns and lines, whose `colspec` elements describe the columns, and whose rows show the cells, the titles and the notes, with the same contents, and
empty entries at the places where nothing is drawn. The lines are sorted by kind, as asked by the option of the builder; if they are already so, nothing moves. -/
theorem C110_formex_to_cals (c : Fmx2Cals.Config) (ns : Option String) (u : List Char) (tg : Bool) (sorting : Option (List String)) (fl : Rat → Rat)
    (hcfg : Cals.Config.new ns u tg sorting fl = .ok c.builder)
    (d : FmxDoc) (w outer : Nat) (parent : Option Node) (hn : d.Nested c.parser.ns c.parser.calsNs outer parent) (hd : d.Placed c.parser.ns c.parser.calsNs w)
    (hc : d.Columns c.parser.calsNs w) (hw : d.Width w) (hh : d.Height d.all.length) (ha : FrameAccepted c.parser.calsNs d.corpus)
    (p : Picture) (hp : CompletedFormex c.parser.ns c.parser.embedGrNotes d w p)
    (hone : OneKind p) (hplain : Without c.builder.ns calsNames p) (hno : Without c.parser.ns ["CORPUS"] p)
    (tree : Node) (hconv : Fmx2Cals.convert c outer parent d.corpus = .ok tree) :
    ∃ (d' : CalsDoc) (q : Picture), d'.table = tree ∧ d'.Nested c.builder.ns ∧ d'.Drawn c.builder.ns w d.all.length ∧ d'.Columns c.builder.ns w ∧
      CalsShows d' q ∧ Regrouped c.builder.tgroupSorting p q ∧ (Grouped c.builder.tgroupSorting p → q = p) := by
  obtain ⟨t, rows, cols, h1, h2, h3, h4, h5, hcov, hread, honly, hdis, hrows, -⟩ :=
    C110_formex_unequal_rows (pc := c.parser) d w d.all.length outer parent hn hd hc hw hh ha PState.init
  have hparsed : ParsedTable t := .formex c.parser outer parent d.corpus PState.init t hn.corpus h1
  have hi : t.Inv := hparsed.tidy.1.inv
  have hord := (C80_rows t hparsed rows h2).1.leftToRight
  have hdr : Describes .row t.grid.cells rows := by rw [views_eq hi h2]; exact Table.base_describes hi .row
  have hval := hi.grid.valid
  unfold Fmx2Cals.convert Convert.thenGenerate at hconv
  rw [h1] at hconv
  -- a cell is told by its place
  have hsame : ∀ a ∈ t.cells, ∀ b ∈ t.cells, Overlap a.box b.box → a = b := by
    intro a ha b hb ho
    exact pairwise_unique hdis ha hb (fun x y h1 ⟨q, h2, h3⟩ => h1 ⟨q, h3, h2⟩) (fun h => h ho)
  have hmin : ∀ a ∈ t.cells, InBox a.box.min a.box := by
    intro a ha
    have := hval a ha
    unfold Box.Valid at this
    simp only [InBox]; omega
  have htoks : ∀ e ∈ d.drawn, ∀ a : Cell Content, Shown c.parser.ns c.parser.calsNs c.parser.embedGrNotes e.1 e.2.1 a →
      contentToks a.content = formexToks c.parser.ns c.parser.embedGrNotes e.1 e.2.1 := by
    rintro ⟨l, n, b⟩ _ a hs
    cases n with
    | none => rw [(hs.empty rfl).1]; rfl
    | some n => rw [hs.content n rfl]; rfl
  have hentry : ∀ a ∈ t.cells, (∃ e ∈ d.drawn, a.box = e.2.2 ∧ contentToks a.content = formexToks c.parser.ns c.parser.embedGrNotes e.1 e.2.1) ∨
      (d.EmptyPlace c.parser.ns a ∧ ∀ e ∈ d.drawn, a.box ≠ e.2.2) := by
    intro a ha
    by_cases hex : ∃ e ∈ d.drawn, a.box = e.2.2
    · obtain ⟨e, he, hb⟩ := hex
      obtain ⟨a', ha', hb', hs'⟩ := hread e he
      have : a = a' := hsame a ha a' ha' ⟨a.box.min, hmin a ha, by rw [hb', ← hb]; exact hmin a ha⟩
      subst this
      exact .inl ⟨e, he, hb, htoks e he a hs'⟩
    · rcases honly a ha with h | h
      · exact absurd h hex
      · exact .inr ⟨h, fun e he hb => hex ⟨e, he, hb⟩⟩
  have hin : ∀ (i : Nat) (l : DocLine), d.all[i]? = some l → ∀ e ∈ d.drawn, e.2.2.min.y = (i : Int) + 1 → e.1 = l ∧ e.2 ∈ l.drawn := by
    intro i l hl e he hy
    obtain ⟨l', hl', hm⟩ := List.mem_flatMap.mp he
    obtain ⟨a, ha, rfl⟩ := List.mem_map.mp hm
    obtain ⟨j, hj⟩ := List.getElem?_of_mem hl'
    have := hd.starts j l' hj a ha
    simp only at hy
    have hij : j = i := by omega
    subst hij
    rw [hl] at hj; cases hj
    exact ⟨rfl, ha⟩
  have hcells : ∀ (i : Nat) (m : Line) (v : View Content), p[i]? = some m → rows[i]? = some v →
      m.cells = v.owned.map (fun a => (a.box, contentToks a.content)) ∧ v.nature = some m.kind := by
    intro i m v hm hv
    have hilt : i < d.all.length := by rw [← hp.lines]; exact (List.getElem?_eq_some_iff.mp hm).1
    have hl : d.all[i]? = some d.all[i] := List.getElem?_eq_getElem hilt
    obtain ⟨v', hv', hnat, _⟩ := hrows i _ hl
    rw [hv] at hv'; cases hv'
    obtain ⟨hvlt, hveq⟩ := List.getElem?_eq_some_iff.mp hv
    have hpos : v.pos = (i : Int) + 1 := by rw [← hveq]; exact hdr.pos i hvlt
    have howned : ∀ a, a ∈ v.owned ↔ a ∈ t.cells ∧ a.box.min.y = (i : Int) + 1 := by
      intro a
      rw [hdr.owned v (List.mem_of_getElem? hv) a, hpos]
      exact Iff.rfl
    refine ⟨?_, by rw [hnat, hp.kinds i _ m hl hm]⟩
    refine sorted_same (fun a : Box × List Tok => a.1.min.x) (hp.order m (List.mem_of_getElem? hm)) ?_ ?_
    · rw [List.pairwise_map]
      exact hord v (List.mem_of_getElem? hv)
    · rintro ⟨b, x⟩
      rw [hp.cells i _ m hl hm b x]
      constructor
      · rintro (⟨e, he, rfl, rfl⟩ | ⟨rfl, hb, hy, hx1, hx2, hno⟩)
        · have hed : (d.all[i], e) ∈ d.drawn := List.mem_flatMap.mpr ⟨_, List.mem_of_getElem? hl, List.mem_map_of_mem he⟩
          obtain ⟨a, ha, e1, e2⟩ := hread _ hed
          refine List.mem_map.mpr ⟨a, (howned a).mpr ⟨ha, ?_⟩, by rw [e1, htoks _ hed a e2]⟩
          rw [e1]; exact hd.starts i _ hl e he
        · obtain ⟨a, ha, hain⟩ := (hcov b.min).mpr ⟨hx1, hx2, by omega, by omega⟩
          rcases hentry a ha with ⟨e, he, e1, _⟩ | ⟨he, _⟩
          · rw [e1] at hain
            exact absurd hain (hno e he)
          · have hba : a.box = b := by
              have h6 := he.2.2.1
              simp only [InBox, h6] at hain
              apply box_ext <;> (try rw [h6]) <;> (try rw [hb]) <;> omega
            refine List.mem_map.mpr ⟨a, (howned a).mpr ⟨ha, by rw [hba]; exact hy⟩, ?_⟩
            rw [hba, he.1]; rfl
      · intro hma
        obtain ⟨a, hav, hae⟩ := List.mem_map.mp hma
        simp only [Prod.mk.injEq] at hae
        obtain ⟨rfl, rfl⟩ := hae
        obtain ⟨ha, hy⟩ := (howned a).mp hav
        rcases hentry a ha with ⟨e, he, e1, e2⟩ | ⟨he, hne⟩
        · obtain ⟨e3, e4⟩ := hin i _ hl e he (by rw [← e1]; exact hy)
          exact .inl ⟨e.2, e4, e1, by rw [e2, e3]⟩
        · refine .inr ⟨by rw [he.1]; rfl, he.2.2.1, hy, ?_, ?_, ?_⟩
          · exact ((hcov a.box.min).mp ⟨a, ha, hmin a ha⟩).1
          · exact ((hcov a.box.min).mp ⟨a, ha, hmin a ha⟩).2.1
          · intro e he' hin'
            obtain ⟨a', ha', e1, _⟩ := hread e he'
            have : a = a' := hsame a ha a' ha' ⟨a.box.min, hmin a ha, by rw [e1]; exact hin'⟩
            subst this
            exact hne e he' e1
  have hshows : TableShows p (rows.map (View.mapContent (Fmx2Cals.stripContent c.parser))) := by
    unfold TableShows
    refine All₂.map_right (all₂_of_get (by rw [hp.lines, h4]) ?_)
    intro i m v hm hv
    obtain ⟨hce, hk⟩ := hcells i m v hm hv
    refine ⟨hk, All₂.map_right ?_⟩
    have hself : All₂ (fun (x : Box × List Tok) (a : Cell Content) => x = (a.box, contentToks a.content)) m.cells v.owned := by
      rw [hce]
      exact all₂_map_self (R := fun (x : Box × List Tok) (a : Cell Content) => x = (a.box, contentToks a.content)) (fun a => (a.box, contentToks a.content)) (fun a => rfl) v.owned
    refine All₂.imp_mem hself ?_
    rintro x hx a rfl
    refine ⟨rfl, ?_⟩
    show contentToks (a.content.map (Fmx2Cals.stripContent c.parser)) = contentToks a.content
    refine strip_toks _ _ ?_
    intro tg at_ htok heq
    refine hno m (List.mem_of_getElem? hm) _ hx tg at_ htok ?_ ?_
    · rw [heq]; rfl
    · rw [heq]; simp [FmxP.Config.f]
  have hne : t.cells ≠ [] := by
    intro e
    obtain ⟨l0, h0, hne⟩ := hd.first
    obtain ⟨a, ha⟩ := List.exists_mem_of_ne_nil _ hne
    have hl0 : l0 ∈ d.all := List.mem_append_left _ (List.mem_of_getElem? h0)
    obtain ⟨x, hx, _⟩ := hread (l0, some a.node, a.box) (List.mem_flatMap.mpr ⟨l0, hl0, List.mem_map_of_mem (by
      unfold DocLine.drawn
      exact List.mem_append_left _ (List.mem_append_right _ (List.mem_map.mpr ⟨a, ha, rfl⟩)))⟩)
    rw [e] at hx; cases hx
  obtain ⟨d', q, r1, r2, r3, r4, r5, r6, r7⟩ := cals_shown hcfg (inv_map (Fmx2Cals.stripContent c.parser) hi) (eval_views_map _ h2) (eval_views_map _ h3)
    (by
      intro e
      have e' : t.grid.cells.map (Cell.mapContent (Fmx2Cals.stripContent c.parser)) = [] := e
      exact hne (List.map_eq_nil_iff.mp e'))
    (List.pairwise_map.mpr hdis)
    (by
      intro p p1 p2 p3 p4
      rw [List.length_map] at p2 p4
      obtain ⟨c', hc', hin⟩ := (hcov p).mpr ⟨p1, by rw [← h5]; exact p2, p3, by rw [← h4]; exact p4⟩
      exact ⟨_, List.mem_map_of_mem hc', hin⟩)
    (by
      intro r hr
      obtain ⟨r, hr', rfl⟩ := List.mem_map.mp hr
      exact List.pairwise_map.mpr (hord r hr'))
    hshows
    (by
      intro m hm
      obtain ⟨i, hi⟩ := List.getElem?_of_mem hm
      have hilt : i < d.all.length := by rw [← hp.lines]; exact (List.getElem?_eq_some_iff.mp hi).1
      rw [hp.kinds i _ m (List.getElem?_eq_getElem hilt) hi]
      exact line_kind _ _)
    hone hplain hconv
  rw [List.length_map] at r3
  rw [List.length_map] at r3 r4
  rw [h4, h5] at r3
  rw [h5] at r4
  exact ⟨d', q, r1, r2, r3, r4, r5, r6, r7⟩

/-- **C110**: for every table whose cells have places there is exactly one picture of it, completed to its number of columns. -/
theorem C110_completed (ns cals : Option String) (embed : Bool) (d : FmxDoc) (w : Nat) (hd : d.Placed ns cals w) (hw : d.Width w) :
    ∃ p, CompletedFormex ns embed d w p ∧ ∀ q, CompletedFormex ns embed d w q → q = p := by
  classical
  -- what is at a place of a line
  let at_ (i : Nat) (l : DocLine) (n : Nat) : Option (Box × List Tok) :=
    if h : ∃ e ∈ l.drawn, e.2.min.x = (n : Int) + 1 then some (h.choose.2, formexToks ns embed l h.choose.1)
    else if ∃ e ∈ d.drawn, InBox ⟨(n : Int) + 1, (i : Int) + 1⟩ e.2.2 then none
    else some (⟨⟨(n : Int) + 1, (i : Int) + 1⟩, ⟨(n : Int) + 1, (i : Int) + 1⟩⟩, [])
  have hat : ∀ i l n a, at_ i l n = some a → a.1.min.x = (n : Int) + 1 := by
    intro i l n a h
    simp only [at_] at h
    split at h
    · next hex => cases h; exact hex.choose_spec.2
    · split at h
      · cases h
      · cases h; rfl
  let p : Picture := d.all.mapIdx (fun i l => ⟨l.kind ns, (List.range w).filterMap (at_ i l)⟩)
  have hget : ∀ (i : Nat) (l : DocLine) (m : Line), d.all[i]? = some l → p[i]? = some m → m = ⟨l.kind ns, (List.range w).filterMap (at_ i l)⟩ := by
    intro i l m hl hm
    simp only [p, List.getElem?_mapIdx, hl, Option.map_some, Option.some.injEq] at hm
    exact hm.symm
  have hmem : ∀ (i : Nat) (l : DocLine), d.all[i]? = some l → ∀ e ∈ l.drawn, (l, e) ∈ d.drawn := fun i l hl e he =>
    List.mem_flatMap.mpr ⟨l, List.mem_of_getElem? hl, List.mem_map_of_mem he⟩
  have hone : ∀ (i : Nat) (l : DocLine), d.all[i]? = some l → ∀ a ∈ l.drawn, ∀ b ∈ l.drawn, a.2.min.x = b.2.min.x → a = b := by
    intro i l hl a ha b hb hab
    have ma := hmem i l hl a ha
    have mb := hmem i l hl b hb
    have va := hd.valid _ ma
    have vb := hd.valid _ mb
    have ya := hd.starts i l hl a ha
    have yb := hd.starts i l hl b hb
    have : (l, a) = (l, b) := pairwise_unique hd.disjoint ma mb (fun x y h1 ⟨q, h2, h3⟩ => h1 ⟨q, h3, h2⟩) (fun h => h ⟨a.2.min, by
      simp only at va; simp only [InBox]; omega, by simp only at vb; simp only [InBox]; omega⟩)
    exact congrArg Prod.snd this
  have hinw := inside_w hd.notes hd.openEnd hw
  have hp : CompletedFormex ns embed d w p := by
    refine ⟨by simp [p], ?_, ?_, ?_⟩
    · intro i l m hl hm
      rw [hget i l m hl hm]
    · intro i l m hl hm b x
      rw [hget i l m hl hm]
      simp only [List.mem_filterMap, List.mem_range]
      constructor
      · rintro ⟨n, hnw, h⟩
        simp only [at_] at h
        split at h
        · next hex =>
          cases h
          exact .inl ⟨_, hex.choose_spec.1, rfl, rfl⟩
        · split at h
          · cases h
          · next hno =>
            cases h
            exact .inr ⟨rfl, rfl, rfl, by simp only; omega, by simp only; omega, fun e he hin => hno ⟨e, he, hin⟩⟩
      · rintro (⟨e, he, rfl, rfl⟩ | ⟨rfl, hb, hy, hx1, hx2, hno⟩)
        · have hv := hd.valid _ (hmem i l hl e he)
          have hx := hinw _ (hmem i l hl e he)
          simp only at hv hx
          have hcast : (((e.2.min.x - 1).toNat : Nat) : Int) + 1 = e.2.min.x := by omega
          refine ⟨(e.2.min.x - 1).toNat, by omega, ?_⟩
          have hex : ∃ a ∈ l.drawn, a.2.min.x = (((e.2.min.x - 1).toNat : Nat) : Int) + 1 := ⟨e, he, hcast.symm⟩
          simp only [at_]
          rw [dif_pos hex]
          have := hone i l hl _ hex.choose_spec.1 e he (by rw [hex.choose_spec.2, hcast])
          rw [this]
        · have hcast : (((b.min.x - 1).toNat : Nat) : Int) + 1 = b.min.x := by omega
          refine ⟨(b.min.x - 1).toNat, by omega, ?_⟩
          have hbm : (⟨b.min.x, (i : Int) + 1⟩ : Coord) = b.min := by rw [← hy]
          simp only [at_, hcast, hbm]
          rw [dif_neg, if_neg]
          · rcases b with ⟨m, M⟩
            simp only at hb ⊢
            rw [hb]
          · rintro ⟨e, he, hin⟩
            exact hno e he hin
          · rintro ⟨e, he, hx⟩
            have hm := hmem i l hl e he
            have hv := hd.valid _ hm
            have hs := hd.starts i l hl e he
            refine hno _ hm ?_
            simp only at hv
            simp only [InBox]; omega
    · intro m hm
      obtain ⟨i, hi⟩ := List.getElem?_of_mem hm
      have hilt : i < d.all.length := by have := (List.getElem?_eq_some_iff.mp hi).1; simpa [p] using this
      rw [hget i _ m (List.getElem?_eq_getElem hilt) hi]
      exact pairwise_filterMap_range (fun a : Box × List Tok => a.1.min.x) _ (hat i _) w
  refine ⟨p, hp, ?_⟩
  intro q hq
  apply List.ext_getElem?
  intro i
  by_cases hilt : i < d.all.length
  · have hr : d.all[i]? = some d.all[i] := List.getElem?_eq_getElem hilt
    have h1 : q[i]? = some (q[i]'(by rw [hq.lines]; exact hilt)) := List.getElem?_eq_getElem _
    have h2 : p[i]? = some (p[i]'(by rw [hp.lines]; exact hilt)) := List.getElem?_eq_getElem _
    generalize (q[i]'(by rw [hq.lines]; exact hilt)) = l at h1
    generalize (p[i]'(by rw [hp.lines]; exact hilt)) = m at h2
    rw [h1, h2]
    have hc : l.cells = m.cells := sorted_same (fun a : Box × List Tok => a.1.min.x) (hq.order l (List.mem_of_getElem? h1)) (hp.order m (List.mem_of_getElem? h2))
      (fun a => by rw [show a = (a.1, a.2) from rfl, hq.cells i _ l hr h1, hp.cells i _ m hr h2])
    have hk : l.kind = m.kind := by rw [hq.kinds i _ l hr h1, hp.kinds i _ m hr h2]
    cases l; cases m
    simp only at hc hk
    rw [hc, hk]
  · rw [List.getElem?_eq_none (by rw [hq.lines]; omega), List.getElem?_eq_none (by rw [hp.lines]; omega)]

/-! ### an example -/

/-- what `fragDemo` shows -/
def fragPicture : Picture :=
  [⟨"body", [(⟨⟨1, 1⟩, ⟨1, 2⟩⟩, insideToks fragA), (⟨⟨2, 1⟩, ⟨2, 1⟩⟩, []), (⟨⟨3, 1⟩, ⟨3, 1⟩⟩, []), (⟨⟨4, 1⟩, ⟨4, 1⟩⟩, [])]⟩,
   ⟨"body", [(⟨⟨2, 2⟩, ⟨2, 2⟩⟩, []), (⟨⟨3, 2⟩, ⟨4, 2⟩⟩, insideToks fragT)]⟩,
   ⟨"body", [(⟨⟨1, 3⟩, ⟨1, 3⟩⟩, insideToks fragB), (⟨⟨2, 3⟩, ⟨3, 3⟩⟩, insideToks fragC), (⟨⟨4, 3⟩, ⟨4, 3⟩⟩, [])]⟩,
   ⟨"footer", [(⟨⟨1, 4⟩, ⟨4, 4⟩⟩, toks fragN)]⟩]

/-- a way of checking what a document shows -/
theorem completedFormex_of {ns : Option String} {embed : Bool} {d : FmxDoc} {w : Nat} {p : Picture} (hlen : p.length = d.all.length)
    (horder : ∀ m ∈ p, m.cells.Pairwise (fun a b => a.1.min.x < b.1.min.x))
    (h : ∀ i ∈ List.range d.all.length, ∀ l ∈ d.all[i]?, ∀ m ∈ p[i]?, m.kind = l.kind ns ∧
      (∀ e ∈ l.drawn, (e.2, formexToks ns embed l e.1) ∈ m.cells) ∧
      (∀ c ∈ m.cells, (∃ e ∈ l.drawn, c.1 = e.2 ∧ c.2 = formexToks ns embed l e.1) ∨
        (c.2 = [] ∧ c.1.max = c.1.min ∧ c.1.min.y = (i : Int) + 1 ∧ 1 ≤ c.1.min.x ∧ c.1.min.x ≤ w ∧
          ∀ e ∈ d.drawn, ¬ (e.2.2.min.x ≤ c.1.min.x ∧ c.1.min.x ≤ e.2.2.max.x ∧ e.2.2.min.y ≤ c.1.min.y ∧ c.1.min.y ≤ e.2.2.max.y))) ∧
      ∀ n ∈ List.range w, (∃ e ∈ d.drawn, e.2.2.min.x ≤ (n : Int) + 1 ∧ (n : Int) + 1 ≤ e.2.2.max.x ∧ e.2.2.min.y ≤ (i : Int) + 1 ∧ (i : Int) + 1 ≤ e.2.2.max.y) ∨
        ((⟨⟨(n : Int) + 1, (i : Int) + 1⟩, ⟨(n : Int) + 1, (i : Int) + 1⟩⟩ : Box), ([] : List Tok)) ∈ m.cells) : CompletedFormex ns embed d w p := by
  have hat : ∀ (i : Nat) (l : DocLine) (m : Line), d.all[i]? = some l → p[i]? = some m → _ := fun i l m hl hm =>
    h i (List.mem_range.mpr (List.getElem?_eq_some_iff.mp hl).1) l hl m hm
  refine ⟨hlen, fun i l m hl hm => (hat i l m hl hm).1, ?_, horder⟩
  intro i l m hl hm b x
  obtain ⟨-, h1, h2, h3⟩ := hat i l m hl hm
  constructor
  · intro hb
    rcases h2 (b, x) hb with ⟨e, he, rfl, rfl⟩ | ⟨e1, e2, e3, e4, e5, e6⟩
    · exact .inl ⟨e, he, rfl, rfl⟩
    · refine .inr ⟨e1, e2, e3, e4, e5, ?_⟩
      intro e he hin
      simp only [InBox] at hin
      exact e6 e he (by simp only; omega)
  · rintro (⟨e, he, rfl, rfl⟩ | ⟨rfl, e2, e3, e4, e5, e6⟩)
    · exact h1 e he
    · have hcast : (((b.min.x - 1).toNat : Nat) : Int) + 1 = b.min.x := by omega
      rcases h3 (b.min.x - 1).toNat (List.mem_range.mpr (by omega)) with ⟨e, he, hin⟩ | hmem
      · refine absurd ?_ (e6 e he)
        simp only [InBox]; omega
      · rw [hcast, ← e3] at hmem
        rcases b with ⟨⟨x1, y1⟩, M⟩
        simp only at e2 hmem
        rw [e2]; exact hmem

/-- not vacuous: a table of four columns, whose lines have one, three and three columns, with a title beside a cell which goes down, and a note -/
example : ∃ (c : Fmx2Cals.Config) (tree : Node), Cals.Config.new none ['m', 'm'] false none id = .ok c.builder ∧
    fragDemo.Nested c.parser.ns c.parser.calsNs 0 (some fragTbl) ∧ fragDemo.Placed c.parser.ns c.parser.calsNs 4 ∧
    fragDemo.Columns c.parser.calsNs 4 ∧ fragDemo.Width 4 ∧ fragDemo.Height fragDemo.all.length ∧ FrameAccepted c.parser.calsNs fragDemo.corpus ∧
    CompletedFormex c.parser.ns c.parser.embedGrNotes fragDemo 4 fragPicture ∧
    OneKind fragPicture ∧ Without c.builder.ns calsNames fragPicture ∧ Without c.parser.ns ["CORPUS"] fragPicture ∧
    Fmx2Cals.convert c 0 (some fragTbl) fragDemo.corpus = .ok tree := by
  obtain ⟨tree, ht⟩ := ok_of (show (Fmx2Cals.convert ⟨⟨none, some "c", true⟩, calsConfig⟩ 0 (some fragTbl) fragDemo.corpus).isOk = true by decide +kernel)
  refine ⟨⟨⟨none, some "c", true⟩, calsConfig⟩, tree, rfl, fragDemo_nested, fragDemo_placed, fragDemo_columns, ⟨by decide +kernel, by decide +kernel⟩,
    ⟨by decide +kernel, by decide +kernel⟩, ?_, completedFormex_of (by decide +kernel) (by decide +kernel) ?_, oneKind_of (by decide +kernel),
    without_of (by decide +kernel), without_of (by decide +kernel), ht⟩
  · intro f hf _
    cases hf; decide
  · intro i hi l hl m hm
    have hi : i < 4 := List.mem_range.mp hi
    have : i = 0 ∨ i = 1 ∨ i = 2 ∨ i = 3 := by omega
    rcases this with rfl | rfl | rfl | rfl <;> cases hl <;> cases hm <;> decide +kernel

end Benker
