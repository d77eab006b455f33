import Verif.Spec.RaggedPicture
import Verif.Props.CalsRagged
import Verif.Props.ToFormex

/-! C109: CALS tables with unequal rows are completed by the conversion to Formex. -/

namespace Benker
open PyM CalsSpec FmxSpec Benker.Shown

/-- two lists which are sorted and have the same members -/
theorem sorted_same {α : Type} (key : α → Int) : ∀ {l m : List α}, l.Pairwise (fun a b => key a < key b) → m.Pairwise (fun a b => key a < key b) →
    (∀ a, a ∈ l ↔ a ∈ m) → l = m
  | [], [], _, _, _ => rfl
  | [], b :: m, _, _, h => by have := (h b).mpr (by simp); cases this
  | a :: l, [], _, _, h => by have := (h a).mp (by simp); cases this
  | a :: l, b :: m, h1, h2, h => by
    have h1' := List.pairwise_cons.mp h1
    have h2' := List.pairwise_cons.mp h2
    have hab : a = b := by
      rcases List.mem_cons.mp ((h a).mp (by simp)) with e | e
      · exact e
      · rcases List.mem_cons.mp ((h b).mpr (by simp)) with e' | e'
        · exact e'.symm
        · have := h1'.1 b e'
          have := h2'.1 a e
          omega
    subst hab
    rw [sorted_same key h1'.2 h2'.2 (fun c => ?_)]
    have hc := h c
    simp only [List.mem_cons] at hc
    constructor
    · intro hcl
      rcases hc.mp (.inr hcl) with e | e
      · subst e; have := h1'.1 c hcl; omega
      · exact e
    · intro hcm
      rcases hc.mpr (.inr hcm) with e | e
      · subst e; have := h2'.1 c hcm; omega
      · exact e

theorem all₂_map_self {α β : Type} {R : β → α → Prop} (f : α → β) (h : ∀ a, R (f a) a) : ∀ l : List α, All₂ R (l.map f) l
  | [] => .nil
  | a :: l => .cons (h a) (all₂_map_self f h l)

/-- a table read from a CALS document whose rows are not all of the same length shows what the document shows, completed -/
theorem ragged_shows {pc : CalsP.Config} {d : CalsDoc} {w : Nat} (hn : d.Nested pc.ns) (hd : d.Placed pc.ns) (hc : d.Columns pc.ns w) (hw : d.Width w)
    (hh : d.Height d.rows.length) (ha : Accepted pc d.table) {p : Picture} (hp : Completed d w p) (parent : Option Node) (s : PState) :
    ∃ (t : Table Content) (rows cols : List (View Content)), eval (CalsP.parseTable pc parent d.table) s = .ok (some t) ∧
      eval (Table.views .row) t = .ok rows ∧ eval (Table.views .col) t = .ok cols ∧ rows.length = d.rows.length ∧ cols.length = w ∧
      ParsedTable t ∧ t.cells ≠ [] ∧ DisjointCells t.cells ∧ (∀ p : Coord, 1 ≤ p.x → p.x ≤ w → 1 ≤ p.y → p.y ≤ d.rows.length → Covered t.cells p) ∧
      (∀ r ∈ rows, r.owned.Pairwise (fun a b => a.min.x < b.min.x)) ∧ TableShows p rows ∧
      (∀ c ∈ t.cells, Dict.get? c.styles "x-cell-empty" = some (.str "true") → contentToks c.content = []) := by
  obtain ⟨t, rows, cols, h1, h2, h3, h4, h5, hcov, hread, honly, hdis, hrows, -⟩ := C109_unequal_rows (pc := pc) d w d.rows.length hn hd hc hw hh ha parent s
  have hparsed : ParsedTable t := .cals pc parent d.table s t hn.table h1
  have hi : t.Inv := hparsed.tidy.1.inv
  have hord := (C80_rows t hparsed rows h2).1.leftToRight
  have hdr : Describes .row t.grid.cells rows := by rw [views_eq hi h2]; exact Table.base_describes hi .row
  have hval := hi.grid.valid
  -- a cell is told by its place
  have hsame : ∀ c ∈ t.cells, ∀ c' ∈ t.cells, Overlap c.box c'.box → c = c' := by
    intro c hc c' hc' ho
    exact pairwise_unique hdis hc hc' (fun x y h1 ⟨q, h2, h3⟩ => h1 ⟨q, h3, h2⟩) (fun h => h ho)
  have hmin : ∀ c ∈ t.cells, InBox c.box.min c.box := by
    intro c hc
    have := hval c hc
    unfold Box.Valid at this
    simp only [InBox]; omega
  have hentry : ∀ c ∈ t.cells, (∃ e ∈ d.entries, c.box = e.2.box ∧ contentToks c.content = insideToks e.2.node ∧ EntryShown pc.ns e.2.node c.styles) ∨
      (d.EmptyPlace c ∧ ∀ e ∈ d.entries, c.box ≠ e.2.box) := by
    intro c hc
    by_cases hex : ∃ e ∈ d.entries, c.box = e.2.box
    · obtain ⟨e, he, hb⟩ := hex
      obtain ⟨c', hc', hb', ht', _, _, hs'⟩ := hread e he
      have : c = c' := hsame c hc c' hc' ⟨c.box.min, hmin c hc, by rw [hb', ← hb]; exact hmin c hc⟩
      subst this
      exact .inl ⟨e, he, hb, ht', hs'⟩
    · rcases honly c hc with h | h
      · exact absurd h hex
      · exact .inr ⟨h, fun e he hb => hex ⟨e, he, hb⟩⟩
  have hin : ∀ (i : Nat) (r : Node × DocRow), d.rows[i]? = some r → ∀ e ∈ d.entries, e.2.box.min.y = (i : Int) + 1 → e.2 ∈ r.2.entries := by
    intro i r hr e he hy
    obtain ⟨r', hr', hm⟩ := List.mem_flatMap.mp he
    obtain ⟨a, ha, rfl⟩ := List.mem_map.mp hm
    obtain ⟨j, hj⟩ := List.getElem?_of_mem hr'
    have := hd.starts j r' hj a ha
    simp only at hy
    have hij : j = i := by omega
    subst hij
    rw [hr] at hj; cases hj
    exact ha
  refine ⟨t, rows, cols, h1, h2, h3, h4, h5, hparsed, ?_, hdis, fun q q1 q2 q3 q4 => (hcov q).mpr ⟨q1, q2, q3, q4⟩, hord, ?_, ?_⟩
  · intro e
    obtain ⟨r0, h0, hne⟩ := hd.first
    obtain ⟨a, ha⟩ := List.exists_mem_of_ne_nil _ hne
    obtain ⟨c, hc, _⟩ := hread (r0.1, a) (List.mem_flatMap.mpr ⟨r0, List.mem_of_getElem? h0, List.mem_map_of_mem ha⟩)
    rw [e] at hc; cases hc
  · refine all₂_of_get (by rw [hp.rows, h4]) ?_
    intro i l v hl hv
    have hilt : i < d.rows.length := by rw [← hp.rows]; exact (List.getElem?_eq_some_iff.mp hl).1
    have hr : d.rows[i]? = some d.rows[i] := List.getElem?_eq_getElem hilt
    obtain ⟨v', hv', ⟨k, hk, hnat⟩, _⟩ := hrows i _ hr
    rw [hv] at hv'; cases hv'
    obtain ⟨hvlt, hveq⟩ := List.getElem?_eq_some_iff.mp hv
    have hpos : v.pos = (i : Int) + 1 := by rw [← hveq]; exact hdr.pos i hvlt
    have howned : ∀ c, c ∈ v.owned ↔ c ∈ t.cells ∧ c.box.min.y = (i : Int) + 1 := by
      intro c
      rw [hdr.owned v (List.mem_of_getElem? hv) c, hpos]
      exact Iff.rfl
    refine ⟨?_, ?_⟩
    · rw [hnat]
      obtain ⟨t1, g1, g2⟩ := hp.kinds i _ l hr hl
      obtain ⟨t2, g3, g4⟩ := hk
      rw [g1] at g3
      cases g3
      simp only [List.mem_cons, Prod.mk.injEq, List.not_mem_nil, or_false] at g2 g4
      rcases g2 with ⟨g2, e2⟩ | ⟨g2, e2⟩ | ⟨g2, e2⟩ <;> rcases g4 with ⟨g4, e4⟩ | ⟨g4, e4⟩ | ⟨g4, e4⟩ <;> rw [e2, e4] <;>
        (rw [g2] at g4; revert g4; decide)
    · have hcells : l.cells = v.owned.map (fun c => (c.box, contentToks c.content)) := by
        refine sorted_same (fun a : Box × List Tok => a.1.min.x) (hp.order l (List.mem_of_getElem? hl)) ?_ ?_
        · rw [List.pairwise_map]
          exact hord v (List.mem_of_getElem? hv)
        · rintro ⟨b, x⟩
          rw [hp.cells i _ l hr hl b x]
          constructor
          · rintro (⟨e, he, rfl, rfl⟩ | ⟨rfl, hb, hy, hx1, hx2, hno⟩)
            · obtain ⟨c, hc, e1, e2, _⟩ := hread (d.rows[i].1, e) (List.mem_flatMap.mpr ⟨_, List.mem_of_getElem? hr, List.mem_map_of_mem he⟩)
              refine List.mem_map.mpr ⟨c, (howned c).mpr ⟨hc, ?_⟩, by rw [e1, e2]⟩
              rw [e1]; exact hd.starts i _ hr e he
            · obtain ⟨c, hc, hcin⟩ := (hcov b.min).mpr ⟨hx1, hx2, by omega, by omega⟩
              rcases hentry c hc with ⟨e, he, e1, _⟩ | ⟨he, _⟩
              · rw [e1] at hcin
                exact absurd hcin (hno e he)
              · have hbc : c.box = b := by
                  have h6 := he.2.2.1
                  simp only [InBox, h6] at hcin
                  apply box_ext <;> (try rw [h6]) <;> (try rw [hb]) <;> omega
                refine List.mem_map.mpr ⟨c, (howned c).mpr ⟨hc, by rw [hbc]; exact hy⟩, ?_⟩
                rw [hbc, he.1]; rfl
          · intro hm
            obtain ⟨c, hcv, hce⟩ := List.mem_map.mp hm
            simp only [Prod.mk.injEq] at hce
            obtain ⟨rfl, rfl⟩ := hce
            obtain ⟨hc, hy⟩ := (howned c).mp hcv
            rcases hentry c hc with ⟨e, he, e1, e2, _⟩ | ⟨he, hne⟩
            · exact .inl ⟨e.2, hin i _ hr e he (by rw [← e1]; exact hy), e1, e2⟩
            · refine .inr ⟨by rw [he.1]; rfl, he.2.2.1, hy, ?_, ?_, ?_⟩
              · exact ((hcov c.box.min).mp ⟨c, hc, hmin c hc⟩).1
              · exact ((hcov c.box.min).mp ⟨c, hc, hmin c hc⟩).2.1
              · intro e he' hin'
                obtain ⟨c', hc', e1, _⟩ := hread e he'
                have : c = c' := hsame c hc c' hc' ⟨c.box.min, hmin c hc, by rw [e1]; exact hin'⟩
                subst this
                exact hne e he' e1
      rw [hcells]
      exact all₂_map_self _ (fun c => ⟨rfl, rfl⟩) v.owned
  · intro c hc he
    rcases hentry c hc with ⟨e, _, _, e2, e5⟩ | ⟨h, _⟩
    · rw [e2]
      refine Classical.byContradiction fun hn => ?_
      rw [e5.empty, if_neg hn] at he
      cases he
    · rw [h.1]; rfl

/-- **C109**, CALS to Formex: a CALS table whose rows have not all the same length is completed by the conversion: its result is a `TBL` element, which holds a
`CORPUS` element where every row covers all the columns, whose rows show the entries of the CALS table, at the same places and with the same contents, and
empty cells at the places which no entry covers. -/
theorem C109_cals_to_formex (pc : CalsP.Config) (bc : Fmx.Config) (cals : Option String) (hcals : bc.useCals = true → cals = bc.calsNs)
    (d : CalsDoc) (w : Nat) (hn : d.Nested pc.ns) (hd : d.Placed pc.ns) (hc : d.Columns pc.ns w) (hw : d.Width w) (hh : d.Height d.rows.length)
    (ha : Accepted pc d.table) (p : Picture) (hp : Completed d w p) (htitle : bc.detectTitles = true → NoTitle w p)
    (hplain : Without none formexNames p) (hplain' : Without cals ["colspec"] p) (following : List Node)
    (tree : Node) (hconv : (Convert.cals2formex pc bc).convert following d.table = .ok tree) :
    ∃ d' : FmxDoc, tree.tag? = some (FmxSpec.name "TBL") ∧ tree.children = [d'.corpus] ∧ d'.notes = [] ∧ d'.Nested none cals 0 (some tree) ∧
      d'.Drawn none cals w d.rows.length ∧ d'.WidthKnown w ∧ d'.Columns cals w ∧ FormexLines (fun _ => False) p d'.lines := by
  obtain ⟨t, rows, cols, h1, h2, h3, h4, rfl, hparsed, hne, hdis, hfull, hord, hshow, hempty⟩ := ragged_shows hn hd hc hw hh ha hp none PState.init
  unfold Convert.cals2formex Convert.thenGenerate at hconv
  simp only [h1] at hconv
  rw [← h4] at hfull ⊢
  refine fmx_shown hcals hparsed.tidy.1 h2 h3 hne hdis hfull hord hshow ?_ htitle hplain hplain' (fun _ => False) ?_ hconv
  · intro l hl
    obtain ⟨i, hi⟩ := List.getElem?_of_mem hl
    have hilt : i < d.rows.length := by rw [← hp.rows]; exact (List.getElem?_eq_some_iff.mp hi).1
    obtain ⟨t, _, hk⟩ := hp.kinds i _ l (List.getElem?_eq_getElem hilt) hi
    simp only [List.mem_cons, Prod.mk.injEq, List.not_mem_nil, or_false] at hk ⊢
    rcases hk with ⟨_, h⟩ | ⟨_, h⟩ | ⟨_, h⟩ <;> simp [h]
  · intro c hc hw
    left
    rcases hw with e | e | e
    · rw [e]; rfl
    · rw [e]; rfl
    · exact hempty c hc e

theorem pairwise_filterMap_range {α : Type} (key : α → Int) (f : Nat → Option α) (hf : ∀ n a, f n = some a → key a = (n : Int) + 1) (w : Nat) :
    ((List.range w).filterMap f).Pairwise (fun a b => key a < key b) := by
  rw [List.pairwise_filterMap]
  refine List.Pairwise.imp ?_ List.pairwise_lt_range
  intro n m hnm a ha b hb
  have h1 := hf n a ha
  have h2 := hf m b hb
  omega

/-- **C109**: for every table whose entries have places there is exactly one picture of it, completed to its number of columns. -/
theorem C109_completed (ns : Option String) (d : CalsDoc) (w : Nat) (hn : d.Nested ns) (hd : d.Placed ns) (hw : d.Width w) :
    ∃ p, Completed d w p ∧ ∀ q, Completed d w q → q = p := by
  classical
  -- what is at a place of a row
  let at_ (i : Nat) (r : Node × DocRow) (n : Nat) : Option (Box × List Tok) :=
    if h : ∃ e ∈ r.2.entries, e.box.min.x = (n : Int) + 1 then some (h.choose.box, insideToks h.choose.node)
    else if ∃ e ∈ d.entries, InBox ⟨(n : Int) + 1, (i : Int) + 1⟩ e.2.box then none
    else some (⟨⟨(n : Int) + 1, (i : Int) + 1⟩, ⟨(n : Int) + 1, (i : Int) + 1⟩⟩, [])
  have hat : ∀ i r n a, at_ i r n = some a → a.1.min.x = (n : Int) + 1 := by
    intro i r n a h
    simp only [at_] at h
    split at h
    · next hex => cases h; exact hex.choose_spec.2
    · split at h
      · cases h
      · cases h; rfl
  have hkind : ∀ r ∈ d.rows, ∃ k, KindOf r.1 k := by
    intro r hr
    obtain ⟨b, hb, hr⟩ := List.mem_flatMap.mp hr
    obtain ⟨r', _, rfl⟩ := List.mem_map.mp hr
    obtain ⟨⟨name, hname, htag⟩, _⟩ := hn.bodies b hb
    simp only [List.mem_cons, List.not_mem_nil, or_false] at hname
    rcases hname with rfl | rfl | rfl
    · exact ⟨"header", _, htag, by simp⟩
    · exact ⟨"body", _, htag, by simp⟩
    · exact ⟨"footer", _, htag, by simp⟩
  let kind (r : Node × DocRow) : String := if h : ∃ k, KindOf r.1 k then h.choose else ""
  let p : Picture := d.rows.mapIdx (fun i r => ⟨kind r, (List.range w).filterMap (at_ i r)⟩)
  have hget : ∀ (i : Nat) (r : Node × DocRow) (l : Line), d.rows[i]? = some r → p[i]? = some l → l = ⟨kind r, (List.range w).filterMap (at_ i r)⟩ := by
    intro i r l hr hl
    simp only [p, List.getElem?_mapIdx, hr, Option.map_some, Option.some.injEq] at hl
    exact hl.symm
  have hone : ∀ (i : Nat) (r : Node × DocRow), d.rows[i]? = some r → ∀ a ∈ r.2.entries, ∀ b ∈ r.2.entries, a.box.min.x = b.box.min.x → a = b := by
    intro i r hr a ha b hb hab
    have hm := List.mem_of_getElem? hr
    have ma : (r.1, a) ∈ d.entries := List.mem_flatMap.mpr ⟨r, hm, List.mem_map_of_mem ha⟩
    have mb : (r.1, b) ∈ d.entries := List.mem_flatMap.mpr ⟨r, hm, List.mem_map_of_mem hb⟩
    have va := hd.valid _ ma
    have vb := hd.valid _ mb
    have ya := hd.starts i r hr a ha
    have yb := hd.starts i r hr b hb
    have : (r.1, a) = (r.1, b) := pairwise_unique hd.disjoint ma mb (fun x y h1 ⟨q, h2, h3⟩ => h1 ⟨q, h3, h2⟩) (fun h => h ⟨a.box.min, by
      simp only at va; simp only [InBox]; omega, by simp only at vb; simp only [InBox]; omega⟩)
    exact congrArg Prod.snd this
  have hp : Completed d w p := by
    refine ⟨by simp [p], ?_, ?_, ?_⟩
    · intro i r l hr hl
      rw [hget i r l hr hl]
      have hex := hkind r (List.mem_of_getElem? hr)
      simp only [kind, dif_pos hex]
      exact hex.choose_spec
    · intro i r l hr hl b x
      rw [hget i r l hr hl]
      simp only [List.mem_filterMap, List.mem_range]
      constructor
      · rintro ⟨n, hnw, h⟩
        simp only [at_] at h
        split at h
        · next hex =>
          cases h
          exact .inl ⟨_, hex.choose_spec.1, rfl, rfl⟩
        · split at h
          · cases h
          · next hno =>
            cases h
            exact .inr ⟨rfl, rfl, rfl, by simp only; omega, by simp only; omega, fun e he hin => hno ⟨e, he, hin⟩⟩
      · rintro (⟨e, he, rfl, rfl⟩ | ⟨rfl, hb, hy, hx1, hx2, hno⟩)
        · have hm : (r.1, e) ∈ d.entries := List.mem_flatMap.mpr ⟨r, List.mem_of_getElem? hr, List.mem_map_of_mem he⟩
          have hv := hd.valid _ hm
          have hx : e.box.max.x ≤ w := hw.2 _ (List.mem_append_left _ (List.mem_map.mpr ⟨_, hm, rfl⟩))
          simp only at hv
          have hcast : (((e.box.min.x - 1).toNat : Nat) : Int) + 1 = e.box.min.x := by omega
          refine ⟨(e.box.min.x - 1).toNat, by omega, ?_⟩
          have hex : ∃ a ∈ r.2.entries, a.box.min.x = (((e.box.min.x - 1).toNat : Nat) : Int) + 1 := ⟨e, he, hcast.symm⟩
          simp only [at_]
          rw [dif_pos hex]
          have := hone i r hr _ hex.choose_spec.1 e he (by rw [hex.choose_spec.2, hcast])
          rw [this]
        · have hcast : (((b.min.x - 1).toNat : Nat) : Int) + 1 = b.min.x := by omega
          refine ⟨(b.min.x - 1).toNat, by omega, ?_⟩
          have hbm : (⟨b.min.x, (i : Int) + 1⟩ : Coord) = b.min := by rw [← hy]
          simp only [at_, hcast, hbm]
          rw [dif_neg, if_neg]
          · rcases b with ⟨m, M⟩
            simp only at hb ⊢
            rw [hb]
          · rintro ⟨e, he, hin⟩
            exact hno e he hin
          · rintro ⟨e, he, hx⟩
            have hm : (r.1, e) ∈ d.entries := List.mem_flatMap.mpr ⟨r, List.mem_of_getElem? hr, List.mem_map_of_mem he⟩
            have hv := hd.valid _ hm
            have hs := hd.starts i r hr e he
            refine hno _ hm ?_
            simp only at hv
            simp only [InBox]; omega
    · intro l hl
      obtain ⟨i, hi⟩ := List.getElem?_of_mem hl
      have hilt : i < d.rows.length := by have := (List.getElem?_eq_some_iff.mp hi).1; simpa [p] using this
      rw [hget i _ l (List.getElem?_eq_getElem hilt) hi]
      exact pairwise_filterMap_range (fun a : Box × List Tok => a.1.min.x) _ (hat i _) w
  refine ⟨p, hp, ?_⟩
  intro q hq
  apply List.ext_getElem?
  intro i
  by_cases hilt : i < d.rows.length
  · have hr : d.rows[i]? = some d.rows[i] := List.getElem?_eq_getElem hilt
    have h1 : q[i]? = some (q[i]'(by rw [hq.rows]; exact hilt)) := List.getElem?_eq_getElem _
    have h2 : p[i]? = some (p[i]'(by rw [hp.rows]; exact hilt)) := List.getElem?_eq_getElem _
    generalize (q[i]'(by rw [hq.rows]; exact hilt)) = l at h1
    generalize (p[i]'(by rw [hp.rows]; exact hilt)) = m at h2
    rw [h1, h2]
    have hc : l.cells = m.cells := sorted_same (fun a : Box × List Tok => a.1.min.x) (hq.order l (List.mem_of_getElem? h1)) (hp.order m (List.mem_of_getElem? h2))
      (fun a => by rw [show a = (a.1, a.2) from rfl, hq.cells i _ l hr h1, hp.cells i _ m hr h2])
    have hk : l.kind = m.kind := by
      obtain ⟨t1, g1, g2⟩ := hq.kinds i _ l hr h1
      obtain ⟨t2, g3, g4⟩ := hp.kinds i _ m hr h2
      rw [g1] at g3
      cases g3
      simp only [List.mem_cons, Prod.mk.injEq, List.not_mem_nil, or_false] at g2 g4
      rcases g2 with ⟨g2, e2⟩ | ⟨g2, e2⟩ | ⟨g2, e2⟩ <;> rcases g4 with ⟨g4, e4⟩ | ⟨g4, e4⟩ | ⟨g4, e4⟩ <;> rw [e2, e4] <;>
        (rw [g2] at g4; revert g4; decide)
    cases l; cases m
    simp only at hc hk
    rw [hc, hk]
  · rw [List.getElem?_eq_none (by rw [hq.rows]; omega), List.getElem?_eq_none (by rw [hp.rows]; omega)]

/-! ### an example -/

def shortC : Node := .elem (qn "colspec") [(qn "colnum", "3"), (qn "colwidth", "2cm")] none [] none
def shortR1 : Node := .elem (qn "row") [(qn "rowsep", "1")] none [docE1] none
def shortR2 : Node := .elem (qn "row") [] none [docE5] none
def shortHead : Node := .elem (qn "thead") [] none [shortR1] none
def shortBody : Node := .elem (qn "tbody") [(qn "valign", "top")] none [shortR2] none
def shortTg : Node := .elem (qn "tgroup") [(qn "cols", "3")] none [shortC, shortHead, shortBody] none
def shortTable : Node := .elem (qn "table") [(qn "frame", "all")] none [shortTg] none

/-- a table of three columns, whose rows have two columns and one column -/
def shortDemo : CalsDoc :=
  ⟨shortTable, shortTg, [⟨shortC, 3⟩],
   [⟨shortHead, [⟨shortR1, [⟨docE1, ⟨⟨1, 1⟩, ⟨2, 1⟩⟩⟩]⟩]⟩, ⟨shortBody, [⟨shortR2, [⟨docE5, ⟨⟨1, 2⟩, ⟨1, 2⟩⟩⟩]⟩]⟩]⟩

/-- what it shows -/
def shortPicture : Picture :=
  [⟨"header", [(⟨⟨1, 1⟩, ⟨2, 1⟩⟩, insideToks docE1), (⟨⟨3, 1⟩, ⟨3, 1⟩⟩, [])]⟩,
   ⟨"body", [(⟨⟨1, 2⟩, ⟨1, 2⟩⟩, insideToks docE5), (⟨⟨2, 2⟩, ⟨2, 2⟩⟩, []), (⟨⟨3, 2⟩, ⟨3, 2⟩⟩, [])]⟩]

theorem shortDemo_nested : shortDemo.Nested none := by
  refine ⟨rfl, .take _ _ _ .nil, rfl, .take _ _ _ (.take _ _ _ (.take _ _ _ .nil)), ?_, ?_, ?_, ?_⟩
  · intro c hc
    simp only [shortDemo, List.mem_cons, List.not_mem_nil, or_false] at hc
    subst hc
    exact ⟨rfl, noCals_of (by decide +kernel)⟩
  · intro b hb
    simp only [shortDemo, List.mem_cons, List.not_mem_nil, or_false] at hb
    rcases hb with rfl | rfl
    · exact ⟨⟨"thead", by simp, rfl⟩, .take _ _ _ .nil⟩
    · exact ⟨⟨"tbody", by simp, rfl⟩, .take _ _ _ .nil⟩
  · intro r hr
    simp only [shortDemo, CalsDoc.rows, List.flatMap_cons, List.flatMap_nil, List.map_cons, List.map_nil, List.cons_append, List.nil_append, List.append_nil,
      List.mem_cons, List.not_mem_nil, or_false] at hr
    rcases hr with rfl | rfl <;> exact ⟨rfl, .take _ _ _ .nil⟩
  · intro e he
    simp only [shortDemo, CalsDoc.rows, CalsDoc.entries, List.flatMap_cons, List.flatMap_nil, List.map_cons, List.map_nil, List.cons_append, List.nil_append,
      List.append_nil, List.mem_cons, List.not_mem_nil, or_false] at he
    rcases he with rfl | rfl <;> exact ⟨rfl, noCals_of (by decide +kernel)⟩

theorem shortDemo_columns : shortDemo.Columns none 3 := by
  refine ⟨?_, by decide +kernel, by decide +kernel⟩
  intro i c hi
  have hlt : i < 1 := (List.getElem?_eq_some_iff.mp hi).1
  have : i = 0 := by omega
  subst this
  cases hi
  exact .inr ⟨"3", rfl, isNumber_ascii (by decide) (by decide)⟩

theorem shortDemo_entries : shortDemo.entries = [(shortHead, ⟨docE1, ⟨⟨1, 1⟩, ⟨2, 1⟩⟩⟩), (shortBody, ⟨docE5, ⟨⟨1, 2⟩, ⟨1, 2⟩⟩⟩)] := rfl

theorem shortDemo_placed : shortDemo.Placed none := by
  refine ⟨⟨_, rfl, by simp⟩, ?_, by decide +kernel, ?_, ?_, ?_⟩
  · intro i r hr e he
    have hi : i < 2 := (List.getElem?_eq_some_iff.mp hr).1
    have : i = 0 ∨ i = 1 := by omega
    rcases this with rfl | rfl <;> cases hr <;> simp only [List.mem_cons, List.not_mem_nil, or_false] at he <;> subst he <;> rfl
  · intro e he
    rw [shortDemo_entries] at he
    simp only [List.mem_cons, List.not_mem_nil, or_false] at he
    rcases he with rfl | rfl
    · exact ⟨.inr ⟨"c1", "c2", 1, 2, rfl, rfl, ⟨['c'], ['1'], [], by decide +kernel⟩, ⟨['c'], ['2'], [], by decide +kernel⟩, rfl⟩, .inl ⟨rfl, rfl⟩⟩
    · exact ⟨.inl ⟨rfl, rfl, rfl⟩, .inl ⟨rfl, rfl⟩⟩
  · rw [shortDemo_entries]
    simp only [List.pairwise_cons, List.mem_cons, List.not_mem_nil, or_false]
    refine ⟨?_, nofun, List.Pairwise.nil⟩
    rintro a rfl ⟨p, hp⟩
    simp only [InBox] at hp
    omega
  · intro pre e post hs x h1 h2
    rw [shortDemo_entries] at hs
    rcases pre with _ | ⟨p1, _ | ⟨p2, P⟩⟩ <;>
      simp only [List.nil_append, List.cons_append, List.cons.injEq, List.nil_eq, reduceCtorEq, and_false, List.append_eq_nil_iff] at hs
    · obtain ⟨rfl, _⟩ := hs; simp only at h2; omega
    · obtain ⟨_, rfl, _⟩ := hs; simp only at h2; omega

theorem shortDemo_completed : Completed shortDemo 3 shortPicture := by
  refine ⟨rfl, ?_, ?_, ?_⟩
  · intro i r l hr hl
    have hi : i < 2 := (List.getElem?_eq_some_iff.mp hr).1
    have : i = 0 ∨ i = 1 := by omega
    rcases this with rfl | rfl <;> cases hr <;> cases hl
    · exact ⟨_, rfl, by decide +kernel⟩
    · exact ⟨_, rfl, by decide +kernel⟩
  · intro i r l hr hl b x
    have hi : i < 2 := (List.getElem?_eq_some_iff.mp hr).1
    have : i = 0 ∨ i = 1 := by omega
    rw [shortDemo_entries]
    rcases this with rfl | rfl <;> cases hr <;> cases hl <;>
      simp only [List.mem_cons, List.not_mem_nil, or_false, Prod.mk.injEq, exists_eq_left, forall_eq_or_imp, forall_eq, InBox]
    · constructor
      · rintro (⟨rfl, rfl⟩ | ⟨rfl, rfl⟩)
        · exact .inl ⟨rfl, rfl⟩
        · exact .inr ⟨rfl, rfl, by decide, by decide, by decide, by decide, by decide⟩
      · rintro (h | ⟨rfl, hb, h1, h2, h3, h4, h5⟩)
        · exact .inl h
        · right
          refine ⟨box_ext ?_ ?_ ?_ ?_, rfl⟩ <;> (try rw [hb]) <;> simp only <;> omega
    · constructor
      · rintro (⟨rfl, rfl⟩ | ⟨rfl, rfl⟩ | ⟨rfl, rfl⟩)
        · exact .inl ⟨rfl, rfl⟩
        · exact .inr ⟨rfl, rfl, by decide, by decide, by decide, by decide, by decide⟩
        · exact .inr ⟨rfl, rfl, by decide, by decide, by decide, by decide, by decide⟩
      · rintro (h | ⟨rfl, hb, h1, h2, h3, h4, h5⟩)
        · exact .inl h
        · right
          have : b.min.x = 2 ∨ b.min.x = 3 := by omega
          rcases this with hx | hx
          · left
            refine ⟨box_ext ?_ ?_ ?_ ?_, rfl⟩ <;> (try rw [hb]) <;> simp only <;> omega
          · right
            refine ⟨box_ext ?_ ?_ ?_ ?_, rfl⟩ <;> (try rw [hb]) <;> simp only <;> omega
  · decide +kernel

/-- not vacuous: a CALS table of three columns, whose rows have two columns and one column -/
example : ∃ (pc : CalsP.Config) (bc : Fmx.Config) (tree : Node), bc.useCals = true ∧ bc.detectTitles = true ∧
    shortDemo.Nested pc.ns ∧ shortDemo.Placed pc.ns ∧ shortDemo.Columns pc.ns 3 ∧ shortDemo.Width 3 ∧ shortDemo.Height shortDemo.rows.length ∧
    Accepted pc shortDemo.table ∧ Completed shortDemo 3 shortPicture ∧ NoTitle 3 shortPicture ∧
    Without none formexNames shortPicture ∧ Without bc.calsNs ["colspec"] shortPicture ∧ (Convert.cals2formex pc bc).convert [] shortDemo.table = .ok tree := by
  obtain ⟨tree, ht⟩ := ok_of (show ((Convert.cals2formex ⟨none, ['m', 'm'], id⟩ ⟨true, true, none, ['m', 'm'], id⟩).convert [] shortDemo.table).isOk = true by decide +kernel)
  refine ⟨_, _, tree, rfl, rfl, shortDemo_nested, shortDemo_placed, shortDemo_columns, ⟨by decide +kernel, by decide +kernel⟩, ⟨by decide +kernel, by decide +kernel⟩,
    ⟨?_, ?_⟩, shortDemo_completed, noTitle_of (by decide +kernel), without_of (by decide +kernel), without_of (by decide +kernel), ht⟩
  · intro f hf _
    cases hf; decide
  · intro s hs _
    cases hs

end Benker
