import Verif.Props.RaggedToFormex
import Verif.Props.RaggedToCals
import Verif.Props.FormexPlaces
import Verif.Props.Accepted

/-! C109 and C110: the tables whose rows have not all the same length are converted. -/

namespace Benker
open PyM CalsSpec FmxSpec Benker.Shown Accepted

/-- **C109**, success: a CALS table whose rows have not all the same length is always converted to Formex, if its attributes can be read, its entries do not cover each other and its
first row does not look like a title (if titles are looked for); if CALS attributes are asked for, the unit of the widths is a known one and the widths of the columns have numbers. -/
theorem C109_converted (pc : CalsP.Config) (bc : Fmx.Config) (d : CalsDoc) (w : Nat) (hn : d.Nested pc.ns) (hd : d.Placed pc.ns) (hc : d.Columns pc.ns w) (hw : d.Width w)
    (hh : d.Height d.rows.length) (ha : Accepted pc d.table) (p : Picture) (hp : Completed d w p) (htitle : bc.detectTitles = true → NoTitle w p)
    (hcals : bc.useCals = true → KnownUnit bc.widthUnit ∧ NumberedWidths pc.ns d.table) (following : List Node) :
    ∃ tree, (Convert.cals2formex pc bc).convert following d.table = .ok tree := by
  obtain ⟨t, rows, cols, h1, h2, h3, h4, rfl, hparsed, hne, hdis, hfull, hord, hshow, hempty⟩ := ragged_shows hn hd hc hw hh ha hp none PState.init
  refine (C87_cals_to_formex_partial pc bc following d.table hcals t h1).mpr ?_
  intro ht
  rw [← h4] at hfull
  have hpos : 1 ≤ rows.length ∧ 1 ≤ cols.length := by
    obtain ⟨r, hr, hre⟩ := hd.first
    have := (List.getElem?_eq_some_iff.mp hr).1
    refine ⟨by omega, ?_⟩
    obtain ⟨e, he⟩ := List.exists_mem_of_ne_nil _ hre
    have hm : (r.1, e) ∈ d.entries := List.mem_flatMap.mpr ⟨r, List.mem_of_getElem? hr, List.mem_map_of_mem he⟩
    have h5 := hd.valid _ hm
    have h6 := hw.2 _ (List.mem_append_left _ (List.mem_map_of_mem (f := fun e : Node × DocEntry => e.2.box.max.x) hm))
    simp only at h5 h6
    omega
  refine ⟨hfull ⟨1, 1⟩ (by simp) (by simp only; omega) (by simp) (by simp only; omega), fun hT => ?_⟩
  exact absurd hT (no_title hparsed.tidy.1.inv h2 h3 hshow hfull (htitle ht))

/-- **C110**, success: a Formex table whose rows have not all the same length is always converted to CALS, if its attributes can be read, no cell or title of several columns is in a line
down to which a cell of a line above goes, no cell goes down to the notes, the widths of the columns have numbers, and the cells without type are in rows which are not of another type than
the ordinary one. -/
theorem C110_converted (c : Fmx2Cals.Config) (d : FmxDoc) (outer : Nat) (parent : Option Node) (size : Node → Nat × Nat) (start : Node → Nat)
    (hn : d.Nested c.parser.ns c.parser.calsNs outer parent) (hs : d.Sized c.parser.ns c.parser.calsNs size start) (hno : d.NoCollision size)
    (hc : ∃ w, d.Columns c.parser.calsNs w) (ha : FrameAccepted c.parser.calsNs d.corpus)
    (hu : KnownUnit c.builder.widthUnit) (hw : NumberedWidths c.parser.calsNs d.corpus) (htypes : TypedCells c.parser.ns d.corpus) :
    ∃ tree, Fmx2Cals.convert c outer parent d.corpus = .ok tree := by
  obtain ⟨t, _, _, _, h, _⟩ := C110_always_read c.parser d outer parent size start hn hs hno hc ha PState.init
  exact (C87_formex_to_cals_partial c outer parent d.corpus hn.corpus hu hw htypes).mpr ⟨t, h⟩

/-- the hypotheses of `C109_converted` hold of a table of three columns whose rows have two columns and one column; titles and CALS attributes are asked for -/
example : ∃ (pc : CalsP.Config) (bc : Fmx.Config), bc.useCals = true ∧ bc.detectTitles = true ∧
    shortDemo.Nested pc.ns ∧ shortDemo.Placed pc.ns ∧ shortDemo.Columns pc.ns 3 ∧ shortDemo.Width 3 ∧ shortDemo.Height shortDemo.rows.length ∧
    Accepted pc shortDemo.table ∧ Completed shortDemo 3 shortPicture ∧ NoTitle 3 shortPicture ∧ KnownUnit bc.widthUnit ∧ NumberedWidths pc.ns shortDemo.table := by
  refine ⟨⟨none, ['m', 'm'], id⟩, ⟨true, true, none, ['m', 'm'], id⟩, rfl, rfl, shortDemo_nested, shortDemo_placed, shortDemo_columns, ⟨by decide +kernel, by decide +kernel⟩,
    ⟨by decide +kernel, by decide +kernel⟩, ⟨?_, ?_⟩, shortDemo_completed, noTitle_of (by decide +kernel), mm_known, numbered_of (by decide +kernel)⟩
  · intro f hf _
    cases hf; decide
  · intro s hs _
    cases hs

/-- the hypotheses of `C110_converted` hold of the example of `C110_places` -/
example : ∃ c : Fmx2Cals.Config, seatDemo.Nested c.parser.ns c.parser.calsNs 0 (some seatTbl) ∧ seatDemo.Sized c.parser.ns c.parser.calsNs seatSize (fun _ => 2) ∧
    seatDemo.NoCollision seatSize ∧ (∃ w, seatDemo.Columns c.parser.calsNs w) ∧ FrameAccepted c.parser.calsNs seatDemo.corpus ∧
    KnownUnit c.builder.widthUnit ∧ NumberedWidths c.parser.calsNs seatDemo.corpus ∧ TypedCells c.parser.ns seatDemo.corpus := by
  obtain ⟨h1, h2, h3, h4, h5⟩ := seatDemo_good
  exact ⟨⟨⟨none, some "c", false⟩, calsConfig⟩, h1, h2, h3, h4, h5, mm_known, numbered_of (by decide +kernel), typed_of (by decide +kernel)⟩

end Benker
