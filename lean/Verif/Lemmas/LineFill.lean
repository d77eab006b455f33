import Verif.Lemmas.CalsRoundTrip
import Verif.Props.Drawing

/-! Filling a table row by row when the end of a row may be missing: it is completed with cells of one column and one row. -/

namespace Benker
open PyM Table
variable {γ δ : Type}

theorem Refill.fillFrom {R : Cell γ → Cell δ → Prop} (hR : ∀ c d, R c d → d.box = c.box) {G : Goal} {y k : Nat} {rest : List (Cell γ)}
    (hrest : ∀ c ∈ rest, (y : Int) < c.min.y) (hy : 1 ≤ y ∧ y ≤ G.h) (hkw : k ≤ G.w) (content : Option δ) (st : Option Styles) (nature : Option String) :
    ∀ (n : Nat) (a : Int) (done fill : List (Cell γ)) (t : Table δ), ((k : Int) + 1 - a).toNat = n → 1 ≤ a → Tiles G.w G.h (done ++ fill ++ rest) →
    Refill G R done y t → (∀ c ∈ fill, c.min.y = y ∧ c.box.max = c.box.min ∧ a ≤ c.min.x ∧ c.min.x ≤ k) →
    (∀ c ∈ fill, R c ⟨content, st.getD [], nature, c.box⟩) →
    ∃ t', forEach (fillOne content st nature) ((pyRange a (k + 1)).map (fun x => ⟨x, (y : Int)⟩)) t = (.ok (), t') ∧ Refill G R (done ++ fill) y t' := by
  intro n
  induction n with
  | zero =>
    intro a done fill t hn ha hT ht hfill _
    have hnil : fill = [] := by
      cases fill with
      | nil => rfl
      | cons c l => have := hfill c (by simp); omega
    subst hnil
    have : pyRange a ((k : Int) + 1) = [] := List.eq_nil_of_length_eq_zero (by rw [length_pyRange]; omega)
    rw [this, List.append_nil]
    exact ⟨t, rfl, ht⟩
  | succ n ih =>
    intro a done fill t hn ha hT ht hfill hc
    have hcons : pyRange a ((k : Int) + 1) = a :: pyRange (a + 1) ((k : Int) + 1) := pyRange_cons _ _ (by omega)
    have hstep : forEach (fillOne content st nature) ((pyRange a (k + 1)).map (fun x => (⟨x, (y : Int)⟩ : Coord))) t =
        ((fillOne content st nature ⟨a, (y : Int)⟩ >>= fun _ => forEach (fillOne content st nature) ((pyRange (a + 1) (k + 1)).map (fun x => ⟨x, (y : Int)⟩))) t) := by
      rw [hcons]; rfl
    rw [hstep, bind_run, Table.fillOne_run]
    by_cases hcov : Covered done ⟨a, (y : Int)⟩
    · rw [if_pos ((hasCoord_grid _ _).mpr ((covered_all₂ hR ht.cells _).mpr hcov))]
      refine ih (a + 1) done fill t (by omega) (by omega) hT ht ?_ hc
      intro c hcm
      obtain ⟨h1, h2, h3, h4⟩ := hfill c hcm
      refine ⟨h1, h2, ?_, h4⟩
      by_cases hx : c.min.x = a
      · exfalso
        obtain ⟨d, hd, hp⟩ := hcov
        have hdis := hT.disjoint
        unfold DisjointCells at hdis
        rw [List.append_assoc, List.pairwise_append] at hdis
        refine hdis.2.2 d hd c (by simp [hcm]) ⟨_, hp, ?_⟩
        simp only [InBox, Cell.min] at *
        rw [h2]; omega
      · omega
    · rw [if_neg (fun h => hcov ((covered_all₂ hR ht.cells _).mp ((hasCoord_grid _ _).mp h)))]
      -- the cell which covers this place is the first one which is missing
      obtain ⟨c, hcm, hp⟩ := hT.full ⟨a, (y : Int)⟩ ha (by simp only; omega) (by simp only; omega) (by simp only; omega)
      have hcf : c ∈ fill := by
        rcases List.mem_append.mp hcm with hcm | hcm
        · rcases List.mem_append.mp hcm with hcm | hcm
          · exact absurd ⟨c, hcm, hp⟩ hcov
          · exact hcm
        · have := hrest c hcm
          simp only [InBox, Cell.min] at hp this
          omega
      obtain ⟨h1, h2, h3, h4⟩ := hfill c hcf
      simp only [InBox] at hp
      rw [h2] at hp
      have hcx : c.min.x = a := by simp only [Cell.min]; omega
      obtain ⟨l, r, hlr⟩ := List.append_of_mem hcf
      have hl : l = [] := by
        cases l with
        | nil => rfl
        | cons b l =>
          exfalso
          have hs := hT.sorted
          have hb := hfill b (by rw [hlr]; simp)
          rw [hlr] at hs
          rw [List.append_assoc, List.pairwise_append] at hs
          obtain ⟨_, hs, _⟩ := hs
          rw [List.cons_append, List.cons_append, List.pairwise_cons] at hs
          have := hs.1 c (by simp)
          unfold CornerBefore at this
          simp only [Cell.min] at hb h1 hcx
          omega
      subst hl
      rw [List.nil_append] at hlr
      subst hlr
      have hbox : (⟨⟨a, (y : Int)⟩, ⟨a + 1 - 1, (y : Int) + 1 - 1⟩⟩ : Box) = c.box := by
        simp only [Cell.min] at hcx h1
        apply box_ext <;> simp only [h2] <;> omega
      have hnew : Cell.new content st nature a (y : Int) = .ok ⟨content, st.getD [], nature, c.box⟩ := by
        rw [cell_new_ok _ _ _ (by omega), hbox]
      simp only [hnew]
      obtain ⟨t', r1, r2⟩ := ht.put hR (rest := r ++ rest) (by simpa using hT) h1 (.tuple [.int a, .int (y : Int)]) (by
        simp only [Cell.min] at hcx h1
        have : c.box.min = ⟨a, (y : Int)⟩ := by
          rw [← hcx, ← h1]
        rw [this]; rfl) _ (hc c (by simp))
      rw [r1]
      simp only
      have := ih (a + 1) (done ++ [c]) r t' (by omega) (by omega) (by simpa using hT) r2 (by
        intro d hd
        obtain ⟨g1, g2, g3, g4⟩ := hfill d (by simp [hd])
        refine ⟨g1, g2, ?_, g4⟩
        have hs := hT.sorted
        rw [List.append_assoc, List.pairwise_append] at hs
        obtain ⟨_, hs, _⟩ := hs
        rw [List.cons_append, List.pairwise_cons] at hs
        have := hs.1 d (by simp [hd])
        unfold CornerBefore at this
        simp only [Cell.min] at *
        omega) (fun d hd => hc d (by simp [hd]))
      simpa using this

/-- the end of a row which is missing is filled -/
theorem Refill.fillRow {R : Cell γ → Cell δ → Prop} (hR : ∀ c d, R c d → d.box = c.box) {G : Goal} {y k : Nat} {done fill rest : List (Cell γ)} {t : Table δ}
    (hT : Tiles G.w G.h (done ++ fill ++ rest)) (ht : Refill G R done y t) (hrest : ∀ c ∈ rest, (y : Int) < c.min.y) (hy : 1 ≤ y ∧ y ≤ G.h) (hkw : k ≤ G.w)
    (content : Option δ) (st : Option Styles) (nature : Option String)
    (hfill : ∀ c ∈ fill, c.min.y = y ∧ c.box.max = c.box.min ∧ c.min.x ≤ k) (hc : ∀ c ∈ fill, R c ⟨content, st.getD [], nature, c.box⟩) :
    ∃ t', fillMissing ⟨⟨1, (y : Int)⟩, ⟨(k : Int), (y : Int)⟩⟩ content st nature t = (.ok (), t') ∧ Refill G R (done ++ fill) y t' := by
  have e : boxCoords ⟨⟨1, (y : Int)⟩, ⟨(k : Int), (y : Int)⟩⟩ = (pyRange 1 ((k : Int) + 1)).map (fun x => ⟨x, (y : Int)⟩) := by
    unfold boxCoords
    have : pyRange (y : Int) ((y : Int) + 1) = [(y : Int)] := by
      rw [pyRange_cons _ _ (by omega)]
      have : pyRange ((y : Int) + 1) ((y : Int) + 1) = [] := List.eq_nil_of_length_eq_zero (by rw [length_pyRange]; omega)
      rw [this]
    simp only [this, List.flatMap_cons, List.flatMap_nil, List.append_nil]
  unfold fillMissing
  rw [e]
  refine Refill.fillFrom hR hrest hy hkw content st nature _ 1 done fill t rfl (by omega) hT ht ?_ hc
  intro c hcm
  obtain ⟨h1, h2, h3⟩ := hfill c hcm
  have := hT.valid c (by simp [hcm])
  unfold Box.Valid at this
  exact ⟨h1, h2, by simp only [Cell.min]; omega, h3⟩

/-- the end of a row, which may be completed -/
theorem runs_endLine {nat : Nat → Option String} {G : Goal} {R : Cell γ → Cell Content → Prop} (hR : ∀ c d, R c d → d.box = c.box)
    {y : Nat} {done fill rest : List (Cell γ)} (hT : Tiles G.w G.h (done ++ fill ++ rest)) (hrest : ∀ c ∈ rest, (y : Int) + 1 < c.min.y)
    (hy : y + 1 ≤ G.h) (hw : 1 ≤ G.w) (hfill : ∀ c ∈ fill, c.min.y = (y : Int) + 1 ∧ c.box.max = c.box.min)
    (hknown : fill ≠ [] → G.known = G.w ∨ ∃ c ∈ done, c.max.x = G.w)
    (hc : ∀ c ∈ fill, R c ⟨none, [], nat y, c.box⟩) :
    Runs (AtRow nat G R done (y + 1)) (AtGap G R (done ++ fill) (y + 1)) CalsP.endRow := by
  intro s hs
  obtain ⟨colPos, rowPos, srow, table⟩ := s
  obtain ⟨t, h1, h2, h3, _, h5⟩ := hs
  simp only at h1 h2 h3
  subst h1 h2 h3
  have hmax := h5.cols
  have hfull : fill ≠ [] → (t.baseViews .col).length = G.w := by
    intro hne
    rcases hknown hne with h | ⟨c, hcm, h⟩
    · have hgw := hw
      obtain ⟨vs, v, hvs, hv, _⟩ := h5.colLooks (G.w - 1) (by omega)
      have : t.baseViews .col = vs := by
        show (t.cols).getD _ = _
        rw [hvs]; rfl
      have := (List.getElem?_eq_some_iff.mp hv).1
      rw [show t.baseViews .col = vs by assumption]
      rw [show t.baseViews .col = vs by assumption] at hmax
      omega
    · obtain ⟨d, hd, hr⟩ := h5.cells.mem_left hcm
      have := (base_describes h5.inv .col).enough d hd
      simp only [lastLine, Cell.max, hR _ _ hr] at this h
      omega
  have hsome : 1 ≤ (t.baseViews .col).length := by
    by_cases hne : fill = []
    · subst hne
      have hcov := fun q hq => h5.endRow hR (rest := rest) (by simpa using hT) hy (fun c hc => by have := hrest c hc; omega) q hq
      exact h5.someCol (hcov ⟨1, 1⟩ (by simp only; omega))
    · rw [hfull hne]; exact hw
  have h6 := h5.readCols
  obtain ⟨t', r1, r2⟩ := h6.fillRow hR (k := (t.baseViews .col).length) hT (fun c hc => by have := hrest c hc; push_cast; omega) ⟨by omega, hy⟩ (by omega)
    none none (nat (y + 1 - 1)) (by
      intro c hcm
      obtain ⟨g1, g2⟩ := hfill c hcm
      refine ⟨by push_cast; exact g1, g2, ?_⟩
      have hne : fill ≠ [] := by intro e; rw [e] at hcm; cases hcm
      have := hfull hne
      have h8 := hT.inside c (by simp [hcm])
      simp only [Cell.max, Cell.min] at *
      rw [g2] at h8
      omega) (by intro c hcm; exact hc c hcm)
  refine ⟨⟨colPos, ((y + 1 : Nat) : Int), some (((y + 1 : Nat) : Int), nat (y + 1 - 1)), some t'⟩, ?_, _, rfl, rfl, r2⟩
  have hbox : Box.make 1 (y + 1 : Nat) ((t.baseViews .col).length : Int) (y + 1 : Nat) =
      .ok ⟨⟨1, ((y + 1 : Nat) : Int)⟩, ⟨((t.baseViews .col).length : Int), ((y + 1 : Nat) : Int)⟩⟩ :=
    make_eq_ok (by omega)
  unfold CalsP.endRow
  simp only [bind_run, onTable_mk]
  rw [Table.views_run .col t h5.inv.grid]
  simp only [get_run, lift_run, hbox, theRow_mk, onTable_mk, r1]

end Benker
