import Verif.Lemmas.Writable
import Verif.Props.FormexBuilder

/-! C86: which tables can be written. -/

namespace Benker
open Cals CalsSpec Writable PyM

theorem ok_calsRow_iff (cfg : Config) (colsep rowsep : String) (cells : List (Cell Content)) (bb : Option Box)
    (hbb : ∀ c ∈ cells, ∃ b, bb = some b ∧ (∃ d ∈ cells, d.max.x = b.max.x) ∧ (∃ d ∈ cells, d.max.y = b.max.y) ∧
      ∀ d ∈ cells, d.max.x ≤ b.max.x ∧ d.max.y ≤ b.max.y)
    (row : View Content) (hrow : ∀ c ∈ row.owned, c ∈ cells) :
    Ok (Cals.buildRow cfg colsep rowsep bb row) ↔ GoodRow row.styles ∧ ∀ c ∈ row.owned, GoodCell cells c ∧ Placeable c.content := by
  unfold Cals.buildRow
  have hcells : Ok (row.owned.mapM (Cals.buildCell cfg colsep rowsep bb)) ↔ ∀ c ∈ row.owned, GoodCell cells c ∧ Placeable c.content := by
    rw [ok_mapM_iff]
    have key : ∀ c ∈ row.owned, (Ok (Cals.buildCell cfg colsep rowsep bb c) ↔ GoodCell cells c ∧ Placeable c.content) := by
      intro c hc
      obtain ⟨b, rfl, h1, h2, h3⟩ := hbb c (hrow c hc)
      exact ok_entry_iff cfg colsep rowsep cells b h1 h2 h3 c (hrow c hc)
    exact ⟨fun h c hc => (key c hc).mp (h c hc), fun h c hc => (key c hc).mpr (h c hc)⟩
  rw [ok_bind_iff (ok_rowAttrs_iff _ _ _) (fun _ _ => ok_bind_iff hcells (fun _ _ => ok_marks_iff _ _ _))]
  exact ⟨fun ⟨⟨a, b, c⟩, d, e⟩ => ⟨⟨a, b, c, e⟩, d⟩, fun ⟨⟨a, b, c, e⟩, d⟩ => ⟨⟨a, b, c⟩, d, e⟩⟩

/-- the corner of the bounding box is reached by cells -/
theorem corner_reached {t : Table Content} (hi : t.Inv) {bb : Option Box} (h : t.boundingBox = .ok bb) :
    ∀ c ∈ t.cells, ∃ b, bb = some b ∧ (∃ d ∈ t.cells, d.max.x = b.max.x) ∧ (∃ d ∈ t.cells, d.max.y = b.max.y) ∧
      ∀ d ∈ t.cells, d.max.x ≤ b.max.x ∧ d.max.y ≤ b.max.y := by
  intro c hc
  rcases boundingBox_inv t.grid hi.grid with ⟨h1, _⟩ | ⟨b, _, h2, hval, hin, hleast⟩
  · rw [show t.cells = t.grid.cells from rfl, h1] at hc; cases hc
  · have he : bb = some b := by
      have : t.grid.boundingBox = .ok bb := h
      rw [h2] at this; cases this; rfl
    have hle : ∀ d ∈ t.cells, d.max.x ≤ b.max.x ∧ d.max.y ≤ b.max.y := by
      intro d hd
      have hv := hi.grid.valid d hd
      have h1 := hin d hd d.box.max (by simp only [InBox, Box.Valid] at hv ⊢; omega)
      simp only [InBox, Cell.max] at h1 ⊢
      omega
    have hbv : InBox b.max b := by simp only [InBox, Box.Valid] at hval ⊢; omega
    refine ⟨b, he, ?_, ?_, hle⟩
    · refine Classical.byContradiction (fun hn => ?_)
      have := hleast ⟨b.min, ⟨b.max.x - 1, b.max.y⟩⟩ (fun d hd p hp => by
        have h1 := hin d hd p hp
        have h2 := (hle d hd).1
        have h3 : d.max.x ≠ b.max.x := fun he => hn ⟨d, hd, he⟩
        simp only [InBox, Cell.max] at hp h1 h2 h3 ⊢
        omega) b.max hbv
      simp only [InBox] at this
      omega
    · refine Classical.byContradiction (fun hn => ?_)
      have := hleast ⟨b.min, ⟨b.max.x, b.max.y - 1⟩⟩ (fun d hd p hp => by
        have h1 := hin d hd p hp
        have h2 := (hle d hd).2
        have h3 : d.max.y ≠ b.max.y := fun he => hn ⟨d, hd, he⟩
        simp only [InBox, Cell.max] at hp h1 h2 h3 ⊢
        omega) b.max hbv
      simp only [InBox] at this
      omega

theorem inv_calsOk {t : Table Content} (hi : t.Inv) {rows cols : List (View Content)} (hrows : eval (Table.views .row) t = .ok rows)
    (hcols : eval (Table.views .col) t = .ok cols) (cfg : Config) :
    Ok (eval (Cals.generate cfg) t) ↔ InCals cfg.widthUnit t rows cols := by
  obtain ⟨bb, hbb, he⟩ := generate_eq hi cfg
  have hr : t.baseViews .row = rows := by
    unfold eval at hrows; rw [Table.views_run .row t hi.grid] at hrows; cases hrows; rfl
  have hc : t.baseViews .col = cols := by
    unfold eval at hcols; rw [Table.views_run .col t hi.grid] at hcols; cases hcols; rfl
  have hd := Table.base_describes hi .row
  rw [hr] at hd
  rw [he, hr, hc]
  unfold Cals.buildTree
  have hcorner := corner_reached hi hbb
  have hown : ∀ r ∈ rows, ∀ c ∈ r.owned, c ∈ t.cells := fun r hr c hc => ((hd.owned r hr c).mp hc).1
  have hgroups : ∀ colsep rowsep, Ok ((rowGroups cfg rows).mapM (fun g => Cals.buildTbody cfg colsep rowsep bb (groupTag (groupNature g)) g)) ↔
      ∀ r ∈ rows, GoodRow r.styles ∧ ∀ c ∈ r.owned, GoodCell t.cells c ∧ Placeable c.content := by
    intro colsep rowsep
    rw [ok_mapM_iff]
    have hp := (rowGroups_spec cfg rows).2.1
    have hbody : ∀ g tag, Ok (Cals.buildTbody cfg colsep rowsep bb tag g) ↔ ∀ r ∈ g, Ok (Cals.buildRow cfg colsep rowsep bb r) := by
      intro g tag
      unfold Cals.buildTbody
      rw [ok_bind_iff (Q := True) (ok_mapM_iff _) (fun _ _ => ⟨fun _ => trivial, fun _ => ok_pure _⟩)]
      simp
    constructor
    · intro h r hr
      obtain ⟨g, hg, hrg⟩ := List.mem_flatten.mp (hp.mem_iff.mpr hr)
      exact (ok_calsRow_iff cfg colsep rowsep t.cells bb hcorner r (hown r hr)).mp ((hbody g _).mp (h g hg) r hrg)
    · intro h g hg
      refine (hbody g _).mpr (fun r hrg => ?_)
      have hr : r ∈ rows := hp.mem_iff.mp (List.mem_flatten.mpr ⟨g, hg, hrg⟩)
      exact (ok_calsRow_iff cfg colsep rowsep t.cells bb hcorner r (hown r hr)).mpr (h r hr)
  have hall : (∀ r ∈ rows, GoodRow r.styles ∧ ∀ c ∈ r.owned, GoodCell t.cells c ∧ Placeable c.content) ↔
      (∀ r ∈ rows, GoodRow r.styles) ∧ ∀ c ∈ t.cells, GoodCell t.cells c ∧ Placeable c.content := by
    constructor
    · intro h
      refine ⟨fun r hr => (h r hr).1, fun c hc => ?_⟩
      have h1 := hd.enough c hc
      have h2 := lines_valid .row c (hi.grid.valid c hc)
      have hlt : (firstLine .row c - 1).toNat < rows.length := by omega
      refine (h _ (List.getElem_mem hlt)).2 c ((hd.owned _ (List.getElem_mem hlt) c).mpr ⟨hc, ?_⟩)
      unfold StartsIn
      rw [hd.pos _ hlt]; omega
    · rintro ⟨h1, h2⟩ r hr
      exact ⟨h1 r hr, fun c hc => h2 c (hown r hr c hc)⟩
  by_cases hsep : Readable t.styles "x-cell-border-right" ∧ Readable t.styles "x-cell-border-bottom"
  · have htg : Ok (tgroupAttrs cfg t cols.length) := by
      unfold tgroupAttrs
      split
      · obtain ⟨a, ha⟩ := (ok_defaultSep_iff _ _).mpr hsep.1
        obtain ⟨b, hb⟩ := (ok_defaultSep_iff _ _).mpr hsep.2
        rw [ha, hb]
        exact ⟨_, rfl⟩
      · exact ok_pure _
    rw [ok_bind_iff (ok_tableAttrs_iff cfg t hsep.1 hsep.2) (fun _ _ => ok_bind_iff (ok_defaultSep_iff _ _) (fun colsep _ =>
      ok_bind_iff (ok_defaultSep_iff _ _) (fun rowsep _ => ok_bind_iff (Q := True)
        (P := (∀ v ∈ cols, GoodColumn cfg.widthUnit v.styles) ∧ (∀ r ∈ rows, GoodRow r.styles) ∧ ∀ c ∈ t.cells, GoodCell t.cells c ∧ Placeable c.content) ?_
        (fun _ _ => ⟨fun _ => trivial, fun _ => ok_pure _⟩))))]
    · constructor
      · rintro ⟨⟨h1, h2, h3, h4⟩, h5, h6, ⟨h7, h8, h9⟩, _⟩
        refine ⟨⟨?_, h2, h3, h4⟩, h7, h8, h9⟩
        intro key hk
        simp only [List.mem_cons, List.not_mem_nil, or_false] at hk h1
        rcases hk with hk | hk | hk | hk | hk | hk
        · exact h1 _ (by simp [hk])
        · exact h1 _ (by simp [hk])
        · exact h1 _ (by simp [hk])
        · exact h1 _ (by simp [hk])
        · rw [hk]; exact h5
        · rw [hk]; exact h6
      · rintro ⟨⟨h1, h2, h3, h4⟩, h7, h8, h9⟩
        refine ⟨⟨fun key hk => h1 key ?_, h2, h3, h4⟩, hsep.1, hsep.2, ⟨h7, h8, h9⟩, trivial⟩
        simp only [List.mem_cons, List.not_mem_nil, or_false] at hk ⊢
        tauto
    · unfold Cals.buildTgroup
      rw [ok_bind_iff (P := True) ⟨fun _ => trivial, fun _ => htg⟩ (fun _ _ => ok_bind_iff
        (P := ∀ v ∈ cols, GoodColumn cfg.widthUnit v.styles) ?_ (fun _ _ => ok_bind_iff (Q := True) ((hgroups _ _).trans hall) (fun _ _ => ⟨fun _ => trivial, fun _ => ok_pure _⟩)))]
      · simp
      · rw [ok_mapM_iff]
        exact ⟨fun h v hv => (ok_colspec_iff _ _ _ _).mp (h v hv), fun h v hv => (ok_colspec_iff _ _ _ _).mpr (h v hv)⟩
  · constructor
    · rintro ⟨tree, h⟩
      obtain ⟨_, _, h⟩ := bind_ok h
      obtain ⟨a, ha, h⟩ := bind_ok h
      obtain ⟨b, hb, h⟩ := bind_ok h
      exact absurd ⟨(ok_defaultSep_iff _ _).mp ⟨a, ha⟩, (ok_defaultSep_iff _ _).mp ⟨b, hb⟩⟩ hsep
    · intro h
      exact absurd ⟨h.table.borders _ (by simp), h.table.borders _ (by simp)⟩ hsep

/-- **C86**: a table can be written in CALS if and only if its styles have the values which CALS can tell and its cells contain texts and nodes. -/
theorem C86_cals_written (cfg : Config) (t : Table Content) (ht : t.Reachable) (rows cols : List (View Content)) (hrows : eval (Table.views .row) t = .ok rows)
    (hcols : eval (Table.views .col) t = .ok cols) :
    (∃ tree, eval (Cals.generate cfg) t = .ok tree) ↔ InCals cfg.widthUnit t rows cols := inv_calsOk ht.inv hrows hcols cfg

theorem ok_fmxRow_iff (cfg : Fmx.Config) (colsep rowsep : String) (cells : List (Cell Content)) (bb : Option Box)
    (hbb : ∀ c ∈ cells, ∃ b, bb = some b ∧ (∃ d ∈ cells, d.max.x = b.max.x) ∧ (∃ d ∈ cells, d.max.y = b.max.y) ∧
      ∀ d ∈ cells, d.max.x ≤ b.max.x ∧ d.max.y ≤ b.max.y)
    (row : View Content) (hrow : ∀ c, c ∈ row.owned ↔ c ∈ cells ∧ c.min.y = row.pos) :
    Ok (Fmx.buildRow cfg colsep rowsep bb row) ↔ FormexRow cfg.useCals cells row := by
  unfold Fmx.buildRow
  have hcells : Ok (row.owned.mapM (Fmx.buildCell cfg colsep rowsep bb row.nature)) ↔ ∀ c ∈ cells, c.min.y = row.pos →
      KnownNature c row.nature ∧ (cfg.useCals = true → GoodCell cells c) ∧ (¬ FmxSpec.WrittenEmpty c → Placeable c.content) := by
    rw [ok_mapM_iff]
    have key : ∀ c ∈ cells, (Ok (Fmx.buildCell cfg colsep rowsep bb row.nature c) ↔
        KnownNature c row.nature ∧ (cfg.useCals = true → GoodCell cells c) ∧ (¬ FmxSpec.WrittenEmpty c → Placeable c.content)) := by
      intro c hc
      obtain ⟨b, rfl, h1, h2, h3⟩ := hbb c hc
      exact ok_fmxCell_iff cfg colsep rowsep cells b h1 h2 h3 row.nature c hc
    exact ⟨fun h c hc hy => (key c hc).mp (h c ((hrow c).mpr ⟨hc, hy⟩)), fun h c hc => (key c ((hrow c).mp hc).1).mpr (h c ((hrow c).mp hc).1 ((hrow c).mp hc).2)⟩
  rw [ok_bind_iff (ok_fmxRowAttrs_iff _ _ _) (fun _ _ => ok_bind_iff hcells (fun _ _ => ok_marks_iff _ _ _))]
  constructor
  · rintro ⟨h1, h2, h3⟩
    exact ⟨h3, fun hu => ⟨⟨(h1 hu).1.1, (h1 hu).1.2.1, (h1 hu).1.2.2, h3⟩, (h1 hu).2⟩, h2⟩
  · rintro ⟨h3, h1, h2⟩
    exact ⟨fun hu => ⟨⟨(h1 hu).1.valign, (h1 hu).1.bottom, (h1 hu).1.style⟩, (h1 hu).2⟩, h2, h3⟩

/-- the rows which remain when the title is put aside -/
theorem ok_splitTitle_iff (cfg : Fmx.Config) {t : Table Content} (hi : t.Inv) {bb : Option Box} (hbb : t.boundingBox = .ok bb) {rows : List (View Content)}
    (hd : Describes .row t.grid.cells rows) :
    Ok (Fmx.splitTitle cfg bb (t.getItem (.coord ⟨1, 1⟩)) rows) ↔
      (cfg.detectTitles = true → Covered t.cells ⟨1, 1⟩) ∧ (cfg.detectTitles = true → FmxSpec.HasTitle t → ∀ c ∈ t.cells, c.min.y = 1 → InTitle c) := by
  unfold Fmx.splitTitle
  split
  · next hdt =>
    have hget : t.getItem (.coord ⟨1, 1⟩) = t.grid.getCoord ⟨1, 1⟩ := rfl
    cases hg : t.grid.getCoord ⟨1, 1⟩ with
    | error e =>
      have := (getCoord_error.mp hg).2
      rw [hget, hg]
      exact ⟨fun h => absurd h (not_ok _), fun h => absurd (h.1 hdt) this⟩
    | ok c =>
      obtain ⟨hc, hbox⟩ := getCoord_ok hg
      obtain ⟨b, rfl, _, _, _⟩ := corner_reached hi hbb c hc
      rw [hget, hg, ok_bind]
      unfold Fmx.isTitle
      simp only
      rw [ok_bind]
      have hiff : (decide (c.width = b.width) && decide (Dict.get? c.styles "align" = some (.str "center"))) = true ↔ FmxSpec.HasTitle t := by
        rw [Bool.and_eq_true, decide_eq_true_eq, decide_eq_true_eq]
        constructor
        · rintro ⟨h1, h2⟩
          refine ⟨c, b, hg, hbb, ?_, h2⟩
          simp only [Cell.width, Box.width, Cell.max, Cell.min] at h1 ⊢; omega
        · rintro ⟨c', bb', h1, h2, h3, h4⟩
          rw [hget, hg] at h1; cases h1
          rw [hbb] at h2; cases h2
          refine ⟨?_, h4⟩
          simp only [Cell.width, Box.width, Cell.max, Cell.min] at h3 ⊢; omega
      by_cases ht : FmxSpec.HasTitle t
      · rw [if_pos (hiff.mpr ht)]
        have h1 := hd.enough c hc
        have h2 := lines_valid .row c (hi.grid.valid c hc)
        have h3 : 0 < rows.length := by omega
        cases rows with
        | nil => simp at h3
        | cons r rs =>
          have hpos : r.pos = 1 := by have := hd.pos 0 h3; simpa using this
          simp only
          unfold Fmx.buildTitle
          rw [ok_bind_iff (Q := True) (P := ∀ c ∈ t.cells, c.min.y = 1 → InTitle c) ?_ (fun _ _ => ⟨fun _ => trivial, fun _ => ok_pure _⟩)]
          · exact ⟨fun h => ⟨fun _ => ⟨c, hc, hbox⟩, fun _ _ => h.1⟩, fun h => ⟨h.2 hdt ht, trivial⟩⟩
          · rw [ok_bind_iff (Q := True) (ok_mapM_iff _) (fun _ _ => ⟨fun _ => trivial, fun _ => ok_pure _⟩)]
            constructor
            · rintro ⟨h, _⟩ d hd' hy
              exact (ok_titleCell_iff d).mp (h d ((hd.owned r (by simp) d).mpr ⟨hd', by unfold StartsIn; rw [hpos]; exact hy⟩))
            · intro h
              refine ⟨fun d hd' => ?_, trivial⟩
              have h' := (hd.owned r (by simp) d).mp hd'
              refine (ok_titleCell_iff d).mpr (h d h'.1 ?_)
              have := h'.2
              unfold StartsIn at this; rw [hpos] at this; exact this
      · rw [if_neg (fun h => ht (hiff.mp h))]
        exact ⟨fun _ => ⟨fun _ => ⟨c, hc, hbox⟩, fun _ h => absurd h ht⟩, fun _ => ok_pure _⟩
  · next hdt => exact ⟨fun _ => ⟨fun h => absurd h hdt, fun h => absurd h hdt⟩, fun _ => ok_pure _⟩

theorem inv_fmxOk {t : Table Content} (hi : t.Inv) {rows cols : List (View Content)} (hrows : eval (Table.views .row) t = .ok rows)
    (hcols : eval (Table.views .col) t = .ok cols) (cfg : Fmx.Config) (noSeq : Nat) :
    Ok (eval (Fmx.generate cfg noSeq) t) ↔ InFormex cfg.detectTitles cfg.useCals cfg.widthUnit t rows cols := by
  obtain ⟨bb, hbb, he⟩ := fmx_generate_eq hi cfg noSeq
  have hd := Table.base_describes hi .row
  rw [← views_eq hi hrows] at hd
  rw [he, ← views_eq hi hrows, ← views_eq hi hcols]
  have hcorner := corner_reached hi hbb
  have hown : ∀ r ∈ rows, ∀ c, c ∈ r.owned ↔ c ∈ t.cells ∧ c.min.y = r.pos := fun r hr c => hd.owned r hr c
  have htbl : Ok (Fmx.tblAttrs noSeq cols.length t.styles) ↔ (Dict.get? t.styles "x-sect-orient" ≠ none → ∀ v, Dict.get? t.styles "x-sect-size" = some v → ∃ w h, v = .pair w h) := by
    unfold Fmx.tblAttrs
    rw [ok_bind_iff (Q := True) (ok_pageSize_iff _) (fun _ _ => ⟨fun _ => trivial, fun _ => ok_pure _⟩)]
    simp
  have hcorpus : Ok (Fmx.buildCorpus cfg t bb (t.getItem (.coord ⟨1, 1⟩)) cols rows) ↔
      ((cfg.detectTitles = true → Covered t.cells ⟨1, 1⟩) ∧ (cfg.detectTitles = true → FmxSpec.HasTitle t → ∀ c ∈ t.cells, c.min.y = 1 → InTitle c)) ∧
      (cfg.useCals = true → GoodTable cfg.widthUnit t.styles) ∧ (cfg.useCals = true → ∀ v ∈ cols, GoodColumn cfg.widthUnit v.styles) ∧
      ∀ v ∈ rows, ¬ (cfg.detectTitles = true ∧ FmxSpec.HasTitle t ∧ v.pos = 1) → FormexRow cfg.useCals t.cells v := by
    unfold Fmx.buildCorpus
    refine ok_bind_iff (ok_splitTitle_iff cfg hi hbb hd) ?_
    rintro ⟨title, rest⟩ hsplit
    simp only
    have hrest : (∀ v ∈ rest, FormexRow cfg.useCals t.cells v) ↔
        ∀ v ∈ rows, ¬ (cfg.detectTitles = true ∧ FmxSpec.HasTitle t ∧ v.pos = 1) → FormexRow cfg.useCals t.cells v := by
      rcases splitTitle_spec hbb hsplit with ⟨_, rfl, hn⟩ | ⟨r, e, rfl, _, _, h1, h2⟩
      · exact ⟨fun h v hv _ => h v hv, fun h v hv => h v hv (fun hh => hn ⟨hh.1, hh.2.1⟩)⟩
      · have hpos : r.pos = 1 := by have := hd.pos 0 (by simp); simpa using this
        constructor
        · intro h v hv hn
          rcases List.mem_cons.mp hv with rfl | hv
          · exact absurd ⟨h1, h2, hpos⟩ hn
          · exact h v hv
        · intro h v hv
          refine h v (by simp [hv]) ?_
          rintro ⟨_, _, hp⟩
          obtain ⟨i, hlt, rfl⟩ := List.getElem_of_mem hv
          have := hd.pos (i + 1) (by simpa using hlt)
          rw [List.getElem_cons_succ] at this
          omega
    have hsub : ∀ v ∈ rest, v ∈ rows := by
      rcases splitTitle_spec hbb hsplit with ⟨_, rfl, hn⟩ | ⟨r, e, rfl, _, _, h1, h2⟩
      · exact fun v hv => hv
      · exact fun v hv => by simp [hv]
    rw [← hrest]
    by_cases hgood : cfg.useCals = true → GoodTable cfg.widthUnit t.styles
    · refine ok_bind_iff (ok_corpusAttrs_iff cfg t) (fun _ _ => ?_)
      have hsep : ∀ key ∈ ["x-cell-border-right", "x-cell-border-bottom"], Ok (Fmx.tableSep cfg t.styles key) := by
        intro key hk
        unfold Fmx.tableSep
        split
        · next hu =>
          refine (ok_defaultSep_iff _ _).mpr ((hgood hu).borders key ?_)
          simp only [List.mem_cons, List.not_mem_nil, or_false] at hk ⊢
          tauto
        · exact ok_ok _
      obtain ⟨colsep, h1⟩ := hsep "x-cell-border-right" (by simp)
      obtain ⟨rowsep, h2⟩ := hsep "x-cell-border-bottom" (by simp)
      rw [h1, h2, ok_bind, ok_bind]
      have hrows' : Ok (rest.mapM (Fmx.buildRow cfg colsep rowsep bb)) ↔ ∀ v ∈ rest, FormexRow cfg.useCals t.cells v := by
        rw [ok_mapM_iff]
        have key : ∀ v ∈ rest, (Ok (Fmx.buildRow cfg colsep rowsep bb v) ↔ FormexRow cfg.useCals t.cells v) := fun v hv =>
          ok_fmxRow_iff cfg colsep rowsep t.cells bb hcorner v (hown v (hsub v hv))
        exact ⟨fun h v hv => (key v hv).mp (h v hv), fun h v hv => (key v hv).mpr (h v hv)⟩
      split
      · next hu =>
        rw [ok_bind_iff (ok_mapM_iff cols) (fun _ _ => ok_bind_iff (Q := True) hrows' (fun _ _ => ⟨fun _ => trivial, fun _ => ok_pure _⟩))]
        constructor
        · rintro ⟨h1, h2, _⟩; exact ⟨fun _ v hv => (ok_fmxColspec_iff _ _ _ _).mp (h1 v hv), h2⟩
        · rintro ⟨h1, h2⟩; exact ⟨fun v hv => (ok_fmxColspec_iff _ _ _ _).mpr (h1 hu v hv), h2, trivial⟩
      · next hu =>
        rw [pure_bind, ok_bind_iff (Q := True) hrows' (fun _ _ => ⟨fun _ => trivial, fun _ => ok_pure _⟩)]
        exact ⟨fun h => ⟨fun h' => absurd h' hu, h.1⟩, fun h => ⟨h.2, trivial⟩⟩
    · constructor
      · rintro ⟨_, h⟩
        obtain ⟨a, ha, _⟩ := bind_ok h
        exact absurd ((ok_corpusAttrs_iff cfg t).mp ⟨a, ha⟩) hgood
      · rintro ⟨h, _⟩; exact absurd h hgood
  unfold Fmx.buildTree
  rw [ok_bind_iff htbl (fun _ _ => ok_bind_iff (Q := True) hcorpus (fun _ _ => ⟨fun _ => trivial, fun _ => ok_pure _⟩))]
  constructor
  · rintro ⟨h1, ⟨⟨h2, h3⟩, h4, h5, h6⟩, _⟩
    exact ⟨h1, h2, h3, h4, h5, h6⟩
  · rintro ⟨h1, h2, h3, h4, h5, h6⟩
    exact ⟨h1, ⟨⟨h2, h3⟩, h4, h5, h6⟩, trivial⟩

/-- **C86**: a table can be written in Formex if and only if its styles have the values which Formex (and CALS if its attributes are asked for) can tell,
the natures of its cells are known, its cells contain texts and nodes, and what looks like a title can be written as a title. -/
theorem C86_formex_written (cfg : Fmx.Config) (noSeq : Nat) (t : Table Content) (ht : t.Reachable) (rows cols : List (View Content))
    (hrows : eval (Table.views .row) t = .ok rows) (hcols : eval (Table.views .col) t = .ok cols) :
    (∃ tree, eval (Fmx.generate cfg noSeq) t = .ok tree) ↔ InFormex cfg.detectTitles cfg.useCals cfg.widthUnit t rows cols :=
  inv_fmxOk ht.inv hrows hcols cfg noSeq

/-- a table of two columns: a header row whose first cell has some styles, and a row of a cell over both columns whose content is a list -/
def writeDemo (width : String) (styles : Styles) : Table Content :=
  Table.runFrom ⟨[], none, ⟨[]⟩, none, none⟩
    [.access .row, .access .col,
     .grid (.set (.tuple [.int 1, .int 1]) ⟨some (.text "a"), some styles, some "header", 1, 1, 1, 1⟩),
     .grid (.set (.tuple [.int 2, .int 1]) ⟨some (.num "12"), none, some "header", 1, 1, 1, 1⟩),
     .grid (.set (.tuple [.int 1, .int 2]) ⟨some (.seq [some (.text "b"), some (.node titleNode)]), none, some "body", 1, 1, 2, 1⟩),
     .setStyles .col 2 (some [("width", .str width)]), .setNature .row 1 (some "header"), .setNature .row 2 (some "body")]

theorem writeDemo_reachable (w : String) (s : Styles) : (writeDemo w s).Reachable := ⟨[], none, none, _, _, by simp, rfl, rfl⟩

theorem isOk_iff {α : Type} (x : Except PyErr α) : (∃ a, x = .ok a) ↔ x.isOk = true := by
  cases x with
  | ok a => exact ⟨fun _ => rfl, fun _ => ⟨a, rfl⟩⟩
  | error e => exact ⟨fun ⟨_, h⟩ => (by cases h), fun h => (by cases h)⟩

theorem writeDemo_views (w : String) (s : Styles) (ax : Axis) : eval (Table.views ax) (writeDemo w s) = .ok ((writeDemo w s).baseViews ax) := by
  rw [eval, Table.views_run ax _ (writeDemo_reachable w s).inv.grid]

theorem writeDemo_cals (w : String) (s : Styles) :
    InCals ['m', 'm'] (writeDemo w s) ((writeDemo w s).baseViews .row) ((writeDemo w s).baseViews .col) ↔
    (eval (Cals.generate calsConfig) (writeDemo w s)).isOk = true := by
  rw [← isOk_iff]
  exact (C86_cals_written calsConfig _ (writeDemo_reachable w s) _ _ (writeDemo_views w s .row) (writeDemo_views w s .col)).symm

theorem writeDemo_formex (titles cals : Bool) (w : String) (s : Styles) :
    InFormex titles cals ['m', 'm'] (writeDemo w s) ((writeDemo w s).baseViews .row) ((writeDemo w s).baseViews .col) ↔
    (eval (Fmx.generate ⟨titles, cals, none, ['m', 'm'], id⟩ 1) (writeDemo w s)).isOk = true := by
  rw [← isOk_iff]
  exact (C86_formex_written ⟨titles, cals, none, ['m', 'm'], id⟩ 1 _ (writeDemo_reachable w s) _ _ (writeDemo_views w s .row) (writeDemo_views w s .col)).symm

/-- both sides of the equivalence are met: a table can be written; a width without digit, a style which is not a text or an unknown alignment prevents it -/
example : let ok w s := InCals ['m', 'm'] (writeDemo w s) ((writeDemo w s).baseViews .row) ((writeDemo w s).baseViews .col)
    ok "1*" [("align", .str "left")] ∧ ¬ ok "*" [] ∧ ¬ ok "1*" [("cellstyle", .none)] ∧ ¬ ok "1*" [("align", .str "char")] := by
  simp only [writeDemo_cals]
  refine ⟨?_, ?_, ?_, ?_⟩ <;> decide +kernel

/-- both sides of the equivalence are met, with and without titles and CALS attributes -/
example : let ok titles cals w s := InFormex titles cals ['m', 'm'] (writeDemo w s) ((writeDemo w s).baseViews .row) ((writeDemo w s).baseViews .col)
    ok false true "1*" [] ∧ ok true true "1*" [] ∧ ¬ ok false true "*" [] ∧ ok false false "*" [("cellstyle", .none)] ∧ ¬ ok true true "1*" [("cellstyle", .none)] := by
  simp only [writeDemo_formex]
  refine ⟨?_, ?_, ?_, ?_, ?_⟩ <;> decide +kernel

end Benker
