import Verif.Spec.EndToEnd
import Verif.Props.Files
import Verif.Props.WordInner

/-! C99: the conversion of files, from the source to the destination. -/

namespace Benker.Files
open PyM FileSpec CalsSpec FmxSpec Kept Shown

/-! ### options -/

theorem opt_eq {kw : Kwargs} {name : String} {d : OptVal} : opt kw name d = match Dict.get? kw name with
    | none => d
    | some v => v := by
  unfold opt
  cases Dict.get? kw name <;> rfl

theorem textOrNone_iff {kw : Kwargs} {name : String} {d : OptVal} {default value : Option String} (hd : d.textOrNone = .ok default) :
    (opt kw name d).textOrNone = .ok value ↔ GivenName kw name default value := by
  rw [opt_eq]
  unfold GivenName
  cases Dict.get? kw name with
  | none => simp only [hd, Except.ok.injEq]; exact eq_comm
  | some v => cases v <;> simp [OptVal.textOrNone, eq_comm]

theorem text_iff {kw : Kwargs} {name d value : String} : (opt kw name (.str d)).text = .ok value ↔ GivenText kw name d value := by
  rw [opt_eq]
  unfold GivenText
  cases Dict.get? kw name with
  | none => simp [OptVal.text, eq_comm]
  | some v => cases v <;> simp [OptVal.text, eq_comm]

theorem truth_eq {kw : Kwargs} {name : String} : (opt kw name (.bool false)).truth = Switched kw name := by
  rw [opt_eq]
  unfold Switched
  cases Dict.get? kw name with
  | none => rfl
  | some v =>
    cases v with
    | none => rfl
    | bool b => cases b <;> rfl
    | str s =>
      by_cases h : s = ""
      · subst h; rfl
      · simp [OptVal.truth, h]
    | list l => cases l <;> rfl

theorem sorting_iff {kw : Kwargs} {order : List String} : (∃ s, (opt kw "tgroup_sorting" .none).names = .ok s ∧ Cals.sortingOption s = order) ↔ GivenSorting kw order := by
  rw [opt_eq]
  unfold GivenSorting
  cases Dict.get? kw "tgroup_sorting" with
  | none => simp [OptVal.names, Cals.sortingOption, eq_comm]
  | some v =>
    cases v with
    | none => simp [OptVal.names, Cals.sortingOption, eq_comm]
    | list l => cases l <;> simp [OptVal.names, Cals.sortingOption, eq_comm]
    | bool => simp [OptVal.names]
    | str => simp [OptVal.names]

theorem formexOptions_iff {env : Env} {kw : Kwargs} {bc : Fmx.Config} : formexBuilder env kw = .ok bc ↔ FormexOptions env kw bc := by
  constructor
  · intro h
    unfold formexBuilder at h
    obtain ⟨ns, h1, h⟩ := bind_ok h
    obtain ⟨p, h2, h⟩ := bind_ok h
    obtain ⟨u, h3, h⟩ := bind_ok h
    cases h
    exact ⟨(textOrNone_iff (by rfl)).mp h1, ⟨p, (textOrNone_iff (by rfl)).mp h2⟩, by simpa using text_iff.mp h3, truth_eq, truth_eq, rfl⟩
  · rintro ⟨h1, ⟨p, h2⟩, h3, h4, h5, h6⟩
    unfold formexBuilder
    rw [(textOrNone_iff (d := .str calsNs) (by rfl)).mpr h1, ok_bind, (textOrNone_iff (d := .str "cals") (by rfl)).mpr h2, ok_bind, text_iff.mpr h3, ok_bind, truth_eq, truth_eq,
      ← h4, ← h5, ← h6, String.toList_ofList]
    rfl

theorem given_nonempty {kw : Kwargs} {option : String} {value : Option String} (h : GivenName kw option none value) : value ≠ some "" := by
  unfold GivenName at h
  rintro rfl
  split at h
  · cases h
  · cases h
  · split at h
    · cases h
    · rename_i s _ hs
      exact hs (Option.some.inj h).symm
  · exact h

theorem complete_iff (l : List String) : (["header", "footer", "body"].all (fun n => Dict.has (Cals.sortingDict l) n) = true) ↔
    ("header" ∈ l ∧ "footer" ∈ l ∧ "body" ∈ l) := by
  have hd : ∀ n : String, Dict.has (Cals.sortingDict l) n = true ↔ n ∈ l := by
    intro n
    unfold Dict.has
    rcases sortingDict_get l n with ⟨h1, h2⟩ | ⟨i, h1, h2, _⟩
    · rw [h1]; simp [h2]
    · rw [h1]; simp [List.mem_of_getElem? h2]
  simp [hd]

theorem calsOptions_iff {env : Env} {kw : Kwargs} {bc : Cals.Config} : calsBuilder env kw = .ok bc ↔ CalsOptions env kw bc := by
  constructor
  · intro h
    unfold calsBuilder at h
    obtain ⟨ns, h1, h⟩ := bind_ok h
    obtain ⟨p, h2, h⟩ := bind_ok h
    obtain ⟨u, h3, h⟩ := bind_ok h
    obtain ⟨s, h4, h⟩ := bind_ok h
    obtain ⟨ns', h5, h⟩ := bind_ok h
    unfold registerNamespace at h5
    split at h5
    · cases h5
    · rename_i hp
      cases h5
      have h1' := (textOrNone_iff (by rfl)).mp h1
      unfold Cals.Config.new at h
      split at h
      · rename_i hall
        cases h
        refine ⟨?_, ⟨p, (textOrNone_iff (by rfl)).mp h2, ?_⟩, by simpa using text_iff.mp h3, truth_eq, sorting_iff.mp ⟨s, h4, rfl⟩, (complete_iff _).mp hall, rfl⟩
        · simp only [if_neg (given_nonempty h1')]
          exact h1'
        · intro hp' e
          simp only [if_neg (given_nonempty h1')] at e
          exact hp ⟨hp', e⟩
      · cases h
  · rintro ⟨h1, ⟨p, h2, hp⟩, h3, h4, h5, h6, h7⟩
    obtain ⟨s, hs, h5⟩ := sorting_iff.mpr h5
    unfold calsBuilder
    rw [(textOrNone_iff (d := .none) (by rfl)).mpr h1, ok_bind, (textOrNone_iff (d := .none) (by rfl)).mpr h2, ok_bind, text_iff.mpr h3, ok_bind, hs, ok_bind]
    unfold registerNamespace
    rw [if_neg (fun h => hp h.1 h.2), ok_bind, truth_eq, ← h4]
    unfold Cals.Config.new
    rw [h5, if_pos ((complete_iff _).mpr h6), if_neg (given_nonempty h1), ← h7, String.toList_ofList]

theorem calsBuilder_new {env : Env} {kw : Kwargs} {bc : Cals.Config} (h : calsBuilder env kw = .ok bc) :
    ∃ sorting, Cals.Config.new bc.ns bc.widthUnit bc.tableInTgroup sorting bc.fl = .ok bc := by
  have ho := calsOptions_iff.mp h
  obtain ⟨s, hs, h5⟩ := sorting_iff.mpr ho.sorting
  refine ⟨s, ?_⟩
  unfold Cals.Config.new
  rw [h5, if_pos ((complete_iff _).mpr ho.complete), if_neg (given_nonempty ho.namespace_)]

theorem styles_given {env : Env} {fs : FS} {kw : Kwargs} {path : Option String} {doc : Node} {styles : Option Node}
    (h : match path with
      | some p => ∃ sheet, Holds env fs p sheet ∧ styles = some sheet
      | none => styles = ownStyles doc) (hp : stylesPath kw = .ok path) : GivenStyles env fs kw doc styles := by
  refine ⟨path, (textOrNone_iff (by rfl)).mp hp, ?_⟩
  cases path <;> exact h

/-- the builder and the parser have the same unit -/
theorem same_unit {env : Env} {kw : Kwargs} {bc : Fmx.Config} {u : String} (h1 : formexBuilder env kw = .ok bc)
    (h2 : (opt kw "width_unit" (.str "mm")).text = .ok u) : bc.widthUnit = u.toList := by
  have e := text_iff.mpr (formexOptions_iff.mp h1).unit
  rw [h2] at e
  cases e
  rw [String.toList_ofList]

/-! ### conversions which succeed -/

/-- **C99**, CALS to Formex: if the call succeeds, then the source held a document, and the destination holds the same document where the tables are those of Formex.
The options have the values which are given, or the documented defaults. -/
theorem C99_cals_to_formex (env : Env) (hf : Faithful env) (kw : Kwargs) (src dst : String) (fs : FS)
    (h : (convertFile env .cals2formex kw src dst fs).result = .ok ()) :
    ∃ (doc out : Node) (ns : Option String) (bc : Fmx.Config), Holds env fs src doc ∧ Holds env (atEnd fs (convertFile env .cals2formex kw src dst fs)) dst out ∧
      GivenName kw "cals_ns" none ns ∧ FormexOptions env kw bc ∧
      (doc.tag? ≠ some ⟨ns, "table"⟩ → FreeAround (· = ⟨ns, "table"⟩) (["TBL", "CORPUS", "ROW"].map name) doc →
        Around (· = ⟨ns, "table"⟩) (fun _ T F => CalsInFormex (RawApart (Convert.cals2formex ⟨ns, bc.widthUnit, env.fl⟩ bc) env.depth doc) ns bc T F) [] doc out) := by
  obtain ⟨bc, pc, doc, mid, out, h1, h2, h3, h4, h5, h6⟩ := C96_cals_to_formex env hf kw src dst fs h
  unfold calsParser at h2
  obtain ⟨ns, g1, h2⟩ := bind_ok h2
  obtain ⟨u, g2, h2⟩ := bind_ok h2
  cases h2
  have hu := same_unit h1 g2
  exact ⟨doc, out, ns, bc, h3, h6, (textOrNone_iff (by rfl)).mp g1, formexOptions_iff.mp h1, fun hr hfr =>
    (C91_cals_to_formex ⟨ns, u.toList, env.fl⟩ bc doc mid out _ hr hfr h4 h5).imp (fun _ _ _ h => ⟨h.1, fun hap => h.2 (hap mid (by rw [hu]; exact h4))⟩)⟩

/-- **C99**, Word to Formex -/
theorem C99_word_to_formex (env : Env) (hf : Faithful env) (kw : Kwargs) (src dst : String) (fs : FS)
    (h : (convertFile env .ooxml2formex kw src dst fs).result = .ok ()) :
    ∃ (doc out : Node) (styles : Option Node) (bc : Fmx.Config), Holds env fs src doc ∧ Holds env (atEnd fs (convertFile env .ooxml2formex kw src dst fs)) dst out ∧
      GivenStyles env fs kw doc styles ∧ FormexOptions env kw bc ∧
      (doc.tag? ≠ some (OoxmlSpec.name "tbl") → FreeAround (· = OoxmlSpec.name "tbl") (["TBL", "CORPUS", "ROW"].map name) doc →
        Around (· = OoxmlSpec.name "tbl")
          (fun following T F => WordInFormex (RawApart (Convert.ooxml2formex ⟨env.float, env.fl, env.repr, env.recursion, styles⟩ bc) env.depth doc)
            ⟨env.float, env.fl, env.repr, env.recursion, styles⟩ bc (Convert.firstSectList following) T F) [] doc out) := by
  obtain ⟨bc, path, styles, doc, mid, out, h1, h2, h3, h4, h5, h6, h7⟩ := C96_word_to_formex env hf kw src dst fs h
  exact ⟨doc, out, styles, bc, h3, h7, styles_given h4 h2, formexOptions_iff.mp h1, fun hr hfr =>
    (C91_word_to_formex _ bc doc mid out _ hr hfr h5 h6).imp (fun _ _ _ h => ⟨h.1, fun hap => h.2 (hap mid h5)⟩)⟩

/-- **C99**, Formex to CALS -/
theorem C99_formex_to_cals (env : Env) (hf : Faithful env) (kw : Kwargs) (src dst : String) (fs : FS)
    (h : (convertFile env .formex2cals kw src dst fs).result = .ok ()) :
    ∃ (doc out : Node) (pc : FmxP.Config) (bc : Cals.Config), Holds env fs src doc ∧ Holds env (atEnd fs (convertFile env .formex2cals kw src dst fs)) dst out ∧
      GivenName kw "formex_ns" none pc.ns ∧ GivenName kw "cals_ns" none pc.calsNs ∧ pc.embedGrNotes = Switched kw "embed_gr_notes" ∧ CalsOptions env kw bc ∧
      (doc.tag? ≠ some ⟨pc.ns, "CORPUS"⟩ → AroundFormex pc.ns (fun blk parent T C => FormexInCals pc bc blk parent T C) 0 doc out) := by
  obtain ⟨bc, pc, doc, out, h1, h2, h3, h4, h5⟩ := C96_formex_to_cals env hf kw src dst fs h
  obtain ⟨s, hs⟩ := calsBuilder_new h1
  unfold formexParser at h2
  obtain ⟨ns, g1, h2⟩ := bind_ok h2
  obtain ⟨cals, g2, h2⟩ := bind_ok h2
  cases h2
  exact ⟨doc, out, _, bc, h3, h5, (textOrNone_iff (by rfl)).mp g1, (textOrNone_iff (by rfl)).mp g2, truth_eq, calsOptions_iff.mp h1,
    fun hr => C98_formex_to_cals ⟨_, bc⟩ bc.ns bc.widthUnit bc.tableInTgroup s bc.fl hs doc out _ hr h4⟩

/-- **C99**, Word to CALS; also for the tables which are inside tables -/
theorem C99_word_to_cals (env : Env) (hf : Faithful env) (hfl : Units.FloatModel env.fl) (hrepr : ∀ x, ' ' ∉ (env.repr x).toList) (kw : Kwargs) (src dst : String) (fs : FS)
    (h : (convertFile env .ooxml2cals kw src dst fs).result = .ok ()) :
    ∃ (doc out : Node) (styles : Option Node) (bc : Cals.Config), Holds env fs src doc ∧ Holds env (atEnd fs (convertFile env .ooxml2cals kw src dst fs)) dst out ∧
      GivenStyles env fs kw doc styles ∧ CalsOptions env kw bc ∧
      (doc.tag? ≠ some (OoxmlSpec.name "tbl") → ∃ depth, Deep (· = OoxmlSpec.name "tbl")
        (fun following T C => WordInCals ⟨env.float, env.fl, env.repr, env.recursion, styles⟩ bc (Convert.firstSectList following) T C) depth [] doc out) := by
  obtain ⟨bc, path, styles, doc, out, h1, h2, h3, h4, h5, h6⟩ := C96_word_to_cals env hf kw src dst fs h
  obtain ⟨s, hs⟩ := calsBuilder_new h1
  exact ⟨doc, out, styles, bc, h3, h6, styles_given h4 h2, calsOptions_iff.mp h1,
    fun hr => C98_word_to_cals_inner ⟨env.float, env.fl, env.repr, env.recursion, styles⟩ hfl hrepr bc bc.ns bc.widthUnit bc.tableInTgroup s bc.fl hs doc out _ hr h5⟩

/-! ### success -/

theorem large_limit {c : Convert.Conv} {doc out : Node} {limit : Nat} (h : Convert.transformTables c limit doc = .ok out) :
    ∃ N, ∀ l, N ≤ l → Convert.transformTables c l doc = .ok out := by
  have hsel : c.selects doc = false := by
    cases hs : c.selects doc with
    | false => rfl
    | true =>
      unfold Convert.transformTables at h
      rw [hs, if_pos rfl] at h
      obtain ⟨_, _, h⟩ := bind_ok h
      cases h
  have hr := (Convert.C58_replacement c doc out hsel).mp ⟨limit, h⟩
  cases hr with
  | table _ _ _ _ hs => rw [hsel] at hs; cases hs
  | other _ _ _ _ hi =>
    obtain ⟨N, hN⟩ := Convert.inside_found c hi
    refine ⟨N, fun l hl => ?_⟩
    unfold Convert.transformTables
    rw [hsel]
    exact hN l hl

theorem large_limit' {c : Fmx2Cals.Config} {doc out : Node} (hroot : doc.tag? ≠ some ⟨c.parser.ns, "CORPUS"⟩) {limit : Nat}
    (h : Fmx2Cals.transformTables c limit doc = .ok out) : ∃ N, ∀ l, N ≤ l → Fmx2Cals.transformTables c l doc = .ok out := by
  obtain ⟨N, hN⟩ := Fmx2Cals.inside_found c ((Fmx2Cals.C83_replacement c doc out hroot).mp ⟨limit, h⟩)
  refine ⟨N, fun l hl => ?_⟩
  unfold Fmx2Cals.transformTables
  rw [if_neg (by rw [(Fmx2Cals.isCorpus_false _ _).mpr hroot]; simp)]
  exact hN l hl

theorem result_ok {env : Env} {kind : Kind} {kw : Kwargs} {src dst enc : String} {fs : FS} {job : FS → Except PyErr Node} {out : Node} (hw : Writes env)
    (h1 : prepare env kw src kind = .ok job) (h2 : encoding kw = .ok enc) (h3 : job fs = .ok out) : (convertFile env kind kw src dst fs).result = .ok () := by
  obtain ⟨chunks, h4⟩ := hw enc out
  have : output env kind kw src fs = .ok chunks := by
    unfold output
    rw [h1, ok_bind, h2, ok_bind, h3, ok_bind, h4]
  unfold convertFile
  rw [this]

theorem readFile_holds {env : Env} {fs : FS} {path : String} {doc : Node} (h : Holds env fs path doc) : readFile env fs path = .ok doc := by
  obtain ⟨b, h1, h2⟩ := h
  unfold readFile
  rw [h1]
  exact h2

theorem wordStyles_given {env : Env} {fs : FS} {kw : Kwargs} {doc : Node} {styles : Option Node} (h : GivenStyles env fs kw doc styles) :
    ∃ path, stylesPath kw = .ok path ∧ wordStyles env fs path doc = .ok styles := by
  obtain ⟨path, h1, h2⟩ := h
  refine ⟨path, (textOrNone_iff (d := .none) (by rfl)).mpr h1, ?_⟩
  cases path with
  | none =>
    show Except.ok (firstStyles doc) = _
    rw [firstStyles_own doc]
    exact congrArg Except.ok (Eq.symm h2)
  | some p =>
    obtain ⟨sheet, h3, rfl⟩ := h2
    unfold wordStyles
    simp only
    rw [readFile_holds h3]
    rfl

/-- **C99**, CALS to Formex: if the source holds a document whose tables are all drawn on grids, have readable frames and widths, and can be written in Formex, if the options
have values of the right types, and if the XML library can write every document, then the call succeeds (whatever the depth of the document). -/
theorem C99_cals_to_formex_succeeds (env : Env) (hw : Writes env) (kw : Kwargs) (src dst : String) (fs : FS) (doc : Node) (hd : Holds env fs src doc)
    (ns : Option String) (hns : GivenName kw "cals_ns" none ns) (bc : Fmx.Config) (hbc : FormexOptions env kw bc) (enc : String) (henc : GivenText kw "encoding" "utf-8" enc)
    (hroot : doc.tag? ≠ some ⟨ns, "table"⟩) (hfree : FreeAround (· = ⟨ns, "table"⟩) (["TBL", "CORPUS", "ROW"].map name) doc)
    (hu : bc.useCals = true → Accepted.KnownUnit bc.widthUnit)
    (hall : EachTable (· = ⟨ns, "table"⟩) (fun _ T => ∃ (d : CalsDoc) (w h : Nat) (p : Picture), d.table = T ∧ InCals ns d w h p ∧ ForFormex bc.calsNs bc w p ∧
      Accepted ⟨ns, bc.widthUnit, env.fl⟩ T ∧ (bc.useCals = true → Accepted.NumberedWidths ns T ∧ ∀ r ∈ d.rows, r.2.node.attr ⟨ns, "rowstyle"⟩ = none)) [] doc) :
    ∃ N, ∀ depth, N ≤ depth → (convertFile (env.deep depth) .cals2formex kw src dst fs).result = .ok () := by
  obtain ⟨limit, mid, out, h1, h2⟩ := C91_cals_to_formex_succeeds ⟨ns, bc.widthUnit, env.fl⟩ bc doc hroot hfree hu hall
  obtain ⟨N, hN⟩ := large_limit h1
  refine ⟨N, fun l hl => ?_⟩
  have e1 : formexBuilder (env.deep l) kw = .ok bc := formexOptions_iff.mpr ⟨hbc.1, hbc.2, hbc.3, hbc.4, hbc.5, hbc.6⟩
  have e2 : calsParser (env.deep l) kw = .ok ⟨ns, bc.widthUnit, env.fl⟩ := by
    unfold calsParser
    rw [(textOrNone_iff (d := .none) (by rfl)).mpr hns, ok_bind, text_iff.mpr hbc.unit, ok_bind, String.toList_ofList]
    rfl
  refine result_ok (env := env.deep l) (out := out) hw ?_ (text_iff.mpr henc) (job := fun fs => do
      let doc ← readFile (env.deep l) fs src
      let doc ← Convert.transformTables (Convert.cals2formex ⟨ns, bc.widthUnit, env.fl⟩ bc) l doc
      Fmx.finalize bc doc) ?_
  · unfold prepare
    rw [e1, ok_bind, e2, ok_bind]
    rfl
  · rw [readFile_holds (env := env.deep l) hd, ok_bind, hN l hl, ok_bind]
    exact h2

/-- **C99**, Formex to CALS: a document whose tables are all drawn on grids, with known types, frames and widths, is converted -/
theorem C99_formex_to_cals_succeeds (env : Env) (hw : Writes env) (kw : Kwargs) (src dst : String) (fs : FS) (doc : Node) (hd : Holds env fs src doc)
    (pc : FmxP.Config) (h1 : GivenName kw "formex_ns" none pc.ns) (h2 : GivenName kw "cals_ns" none pc.calsNs) (h3 : pc.embedGrNotes = Switched kw "embed_gr_notes")
    (bc : Cals.Config) (hbc : CalsOptions env kw bc) (enc : String) (henc : GivenText kw "encoding" "utf-8" enc) (hu : Accepted.KnownUnit bc.widthUnit)
    (hroot : doc.tag? ≠ some ⟨pc.ns, "CORPUS"⟩)
    (hall : EachFormex pc.ns (fun blk parent T => ∃ (d : FmxDoc) (w h : Nat), d.corpus = T ∧ FormexTable pc.ns pc.calsNs blk parent d w h ∧ FrameAccepted pc.calsNs T ∧
      Accepted.NumberedWidths pc.calsNs T ∧ Accepted.TypedCells pc.ns T) 0 doc) :
    ∃ N, ∀ depth, N ≤ depth → (convertFile (env.deep depth) .formex2cals kw src dst fs).result = .ok () := by
  obtain ⟨limit, out, g1⟩ := C98_formex_to_cals_succeeds ⟨pc, bc⟩ hu doc hroot hall
  obtain ⟨N, hN⟩ := large_limit' (c := ⟨pc, bc⟩) hroot g1
  refine ⟨N, fun l hl => ?_⟩
  have e1 : calsBuilder (env.deep l) kw = .ok bc := calsOptions_iff.mpr ⟨hbc.1, hbc.2, hbc.3, hbc.4, hbc.5, hbc.6, hbc.7⟩
  have e2 : formexParser kw = .ok pc := by
    unfold formexParser
    rw [(textOrNone_iff (d := .none) (by rfl)).mpr h1, ok_bind, (textOrNone_iff (d := .none) (by rfl)).mpr h2, ok_bind, truth_eq, ← h3]
    rfl
  refine result_ok (env := env.deep l) (out := out) hw ?_ (text_iff.mpr henc) (job := fun fs => do
      let doc ← readFile (env.deep l) fs src
      Fmx2Cals.transformTables ⟨pc, bc⟩ l doc) ?_
  · unfold prepare
    rw [e1, ok_bind, e2, ok_bind]
    rfl
  · rw [readFile_holds (env := env.deep l) hd, ok_bind, hN l hl]

/-- **C99**, Word to CALS: a document whose tables, and those inside, are all drawn on grids, where there is no section inside the tables and all the orientations are known,
is converted -/
theorem C99_word_to_cals_succeeds (env : Env) (hw : Writes env) (kw : Kwargs) (src dst : String) (fs : FS) (doc : Node) (hd : Holds env fs src doc)
    (styles : Option Node) (hst : GivenStyles env fs kw doc styles) (bc : Cals.Config) (hbc : CalsOptions env kw bc) (enc : String)
    (henc : GivenText kw "encoding" "utf-8" enc) (hu : Accepted.KnownUnit bc.widthUnit) (hroot : doc.tag? ≠ some (OoxmlSpec.name "tbl"))
    (hall : EachTable (· = OoxmlSpec.name "tbl") (fun following T => WithoutSection T ∧ Accepted.KnownOrientation (Convert.firstSectList following) ∧
      EveryTable (· = OoxmlSpec.name "tbl") (fun T' => ∃ (cellStyles : Node → Styles) (nature : Node → String) (W : Nat),
        OoxmlSpec.GoodTable ⟨env.float, env.fl, env.repr, env.recursion, styles⟩ (Convert.firstSectList following) cellStyles nature W T' ∧
        OoxmlSpec.kids ["tr"] T' ≠ []) T) [] doc) :
    ∃ N, ∀ depth, N ≤ depth → (convertFile (env.deep depth) .ooxml2cals kw src dst fs).result = .ok () := by
  obtain ⟨limit, out, g1⟩ := C98_word_to_cals_inner_succeeds ⟨env.float, env.fl, env.repr, env.recursion, styles⟩ bc hu doc hroot hall
  obtain ⟨N, hN⟩ := large_limit g1
  obtain ⟨path, p1, p2⟩ := wordStyles_given hst
  refine ⟨N, fun l hl => ?_⟩
  have e1 : calsBuilder (env.deep l) kw = .ok bc := calsOptions_iff.mpr ⟨hbc.1, hbc.2, hbc.3, hbc.4, hbc.5, hbc.6, hbc.7⟩
  refine result_ok (env := env.deep l) (out := out) hw ?_ (text_iff.mpr henc) (job := fun fs => do
      let doc ← readFile (env.deep l) fs src
      let styles ← wordStyles (env.deep l) fs path doc
      Convert.transformTables (Convert.ooxml2cals ⟨env.float, env.fl, env.repr, env.recursion, styles⟩ bc) l doc) ?_
  · unfold prepare
    rw [e1, ok_bind, p1, ok_bind]
    rfl
  · rw [readFile_holds (env := env.deep l) hd, ok_bind, show wordStyles (env.deep l) fs path doc = .ok styles from p2, ok_bind, hN l hl]

/-- **C99**, Word to Formex: a document whose tables are all drawn on grids, and can be written in Formex, is converted -/
theorem C99_word_to_formex_succeeds (env : Env) (hw : Writes env) (kw : Kwargs) (src dst : String) (fs : FS) (doc : Node) (hd : Holds env fs src doc)
    (styles : Option Node) (hst : GivenStyles env fs kw doc styles) (bc : Fmx.Config) (hbc : FormexOptions env kw bc) (enc : String)
    (henc : GivenText kw "encoding" "utf-8" enc) (hu : bc.useCals = true → Accepted.KnownUnit bc.widthUnit) (hroot : doc.tag? ≠ some (OoxmlSpec.name "tbl"))
    (hfree : FreeAround (· = OoxmlSpec.name "tbl") (["TBL", "CORPUS", "ROW"].map name) doc)
    (hall : EachTable (· = OoxmlSpec.name "tbl") (fun following T => ∃ (cellStyles : Node → Styles) (nature : Node → String) (W : Nat),
      OoxmlSpec.GoodTable ⟨env.float, env.fl, env.repr, env.recursion, styles⟩ (Convert.firstSectList following) cellStyles nature W T ∧ OoxmlSpec.kids ["tr"] T ≠ [] ∧
      ForFormex bc.calsNs bc W (wordPicture T) ∧ NoInner (OoxmlSpec.name "tbl") T ∧
      (bc.useCals = true → Accepted.KnownOrientation (Convert.firstSectList following))) [] doc) :
    ∃ N, ∀ depth, N ≤ depth → (convertFile (env.deep depth) .ooxml2formex kw src dst fs).result = .ok () := by
  obtain ⟨limit, mid, out, g1, g2⟩ := C91_word_to_formex_succeeds ⟨env.float, env.fl, env.repr, env.recursion, styles⟩ bc doc hroot hfree hu hall
  obtain ⟨N, hN⟩ := large_limit g1
  obtain ⟨path, p1, p2⟩ := wordStyles_given hst
  refine ⟨N, fun l hl => ?_⟩
  have e1 : formexBuilder (env.deep l) kw = .ok bc := formexOptions_iff.mpr ⟨hbc.1, hbc.2, hbc.3, hbc.4, hbc.5, hbc.6⟩
  refine result_ok (env := env.deep l) (out := out) hw ?_ (text_iff.mpr henc) (job := fun fs => do
      let doc ← readFile (env.deep l) fs src
      let styles ← wordStyles (env.deep l) fs path doc
      let doc ← Convert.transformTables (Convert.ooxml2formex ⟨env.float, env.fl, env.repr, env.recursion, styles⟩ bc) l doc
      Fmx.finalize bc doc) ?_
  · unfold prepare
    rw [e1, ok_bind, p1, ok_bind]
    rfl
  · rw [readFile_holds (env := env.deep l) hd, ok_bind, show wordStyles (env.deep l) fs path doc = .ok styles from p2, ok_bind, hN l hl, ok_bind]
    exact g2

/-! ### examples -/

open Classical in
/-- the hypotheses of the first theorems are met as soon as those of the others are: with a library which knows the documents of the files, and the one which is made -/
theorem faithful_of {env : Env} {kind : Kind} {kw : Kwargs} {src dst : String} {fs : FS} (h : (convertFile env kind kw src dst fs).result = .ok ())
    (hb : ∀ p, fs p ≠ some [2, 3]) :
    ∃ env', Faithful env' ∧ env'.fl = env.fl ∧ env'.repr = env.repr ∧ (∀ p doc, Holds env' fs p doc ↔ Holds env fs p doc) ∧
      (convertFile env' kind kw src dst fs).result = .ok () := by
  have ho : ∃ chunks, output env kind kw src fs = .ok chunks := by
    cases hc : output env kind kw src fs with
    | ok chunks => exact ⟨chunks, rfl⟩
    | error e => unfold convertFile at h; rw [hc] at h; cases h
  obtain ⟨chunks, ho⟩ := ho
  obtain ⟨job, enc, out, h1, h2, h3, h4⟩ := output_ok ho
  let env' : Env := { env with
    read := fun b => if b = [2, 3] then .ok out else env.read b
    write := fun _ n => if n = out then .ok [[2], [3]] else .error .valueError }
  have hread : ∀ p, readFile env' fs p = readFile env fs p := by
    intro p
    unfold readFile
    cases hp : fs p with
    | none => rfl
    | some b => exact if_neg (fun e => hb p (by rw [hp, e]))
  have hjob : ∃ job', prepare env' kw src kind = .ok job' ∧ job' fs = job fs := by
    cases kind with
    | cals2formex =>
      unfold prepare at h1 ⊢
      obtain ⟨bc, a1, h1⟩ := bind_ok h1
      obtain ⟨pc, a2, h1⟩ := bind_ok h1
      cases h1
      rw [show formexBuilder env' kw = .ok bc from a1, ok_bind, show calsParser env' kw = .ok pc from a2, ok_bind]
      exact ⟨_, rfl, by simp only [hread]; rfl⟩
    | formex2cals =>
      unfold prepare at h1 ⊢
      obtain ⟨bc, a1, h1⟩ := bind_ok h1
      obtain ⟨pc, a2, h1⟩ := bind_ok h1
      cases h1
      rw [show calsBuilder env' kw = .ok bc from a1, ok_bind, a2, ok_bind]
      exact ⟨_, rfl, by simp only [hread]; rfl⟩
    | ooxml2cals =>
      unfold prepare at h1 ⊢
      obtain ⟨bc, a1, h1⟩ := bind_ok h1
      obtain ⟨path, a2, h1⟩ := bind_ok h1
      cases h1
      rw [show calsBuilder env' kw = .ok bc from a1, ok_bind, a2, ok_bind]
      have hs : ∀ doc, wordStyles env' fs path doc = wordStyles env fs path doc := by
        intro doc
        unfold wordStyles
        cases path with
        | none => rfl
        | some p => simp only [hread]
      exact ⟨_, rfl, by simp only [hread, hs]; rfl⟩
    | ooxml2formex =>
      unfold prepare at h1 ⊢
      obtain ⟨bc, a1, h1⟩ := bind_ok h1
      obtain ⟨path, a2, h1⟩ := bind_ok h1
      cases h1
      rw [show formexBuilder env' kw = .ok bc from a1, ok_bind, a2, ok_bind]
      have hs : ∀ doc, wordStyles env' fs path doc = wordStyles env fs path doc := by
        intro doc
        unfold wordStyles
        cases path with
        | none => rfl
        | some p => simp only [hread]
      exact ⟨_, rfl, by simp only [hread, hs]; rfl⟩
  obtain ⟨job', j1, j2⟩ := hjob
  refine ⟨env', ?_, rfl, rfl, ?_, ?_⟩
  · intro e n chunks hw
    simp only [env'] at hw ⊢
    split at hw
    · cases hw; simp_all
    · cases hw
  · intro p doc
    constructor
    · rintro ⟨b, b1, b2⟩
      have : b ≠ [2, 3] := fun e => hb p (by rw [b1, e])
      exact ⟨b, b1, by simpa [env', this] using b2⟩
    · rintro ⟨b, b1, b2⟩
      have : b ≠ [2, 3] := fun e => hb p (by rw [b1, e])
      exact ⟨b, b1, by simpa [env', this] using b2⟩
  · unfold convertFile output
    rw [j1, ok_bind, h2, ok_bind, j2, h3, ok_bind]
    simp [env']

/-- a library which reads the document in the byte 1 and the stylesheet in the byte 4 -/
def envRead (doc : Node) : Env where
  read b := if b = [1] then .ok doc else if b = [4] then .ok sheetDemo else .error .valueError
  write _ _ := .ok [[2], [3]]
  fl := id
  float := wConfig.float
  repr := wConfig.repr
  recursion := wConfig.limit
  depth := 0

/-- the document is at `a.xml`, and the stylesheet at `s.xml` -/
def fsRead : FS := fun p => if p = "a.xml" then some [1] else if p = "s.xml" then some [4] else none

theorem fsRead_bytes (p : String) : fsRead p ≠ some [2, 3] := by
  unfold fsRead
  split
  · simp
  · split <;> simp

theorem envRead_holds (doc : Node) : Holds (envRead doc) fsRead "a.xml" doc := ⟨[1], rfl, rfl⟩

/-- not vacuous: Word to CALS, with a stylesheet, of a document with twice a table with another one inside -/
example : ∃ (env : Env), Faithful env ∧ Units.FloatModel env.fl ∧ (∀ x, ' ' ∉ (env.repr x).toList) ∧ Holds env fsRead "a.xml" (withTables wordOuter) ∧
    (convertFile env .ooxml2cals [("styles_path", .str "s.xml")] "a.xml" "b.xml" fsRead).result = .ok () := by
  obtain ⟨N, hN⟩ := C99_word_to_cals_succeeds (envRead (withTables wordOuter)) (fun _ _ => ⟨_, rfl⟩) [("styles_path", .str "s.xml")] "a.xml" "b.xml" fsRead (withTables wordOuter)
    (envRead_holds _) (some sheetDemo) ⟨some "s.xml", rfl, sheetDemo, ⟨[4], rfl, rfl⟩, rfl⟩ calsConfig
    ⟨rfl, ⟨none, rfl, fun h => absurd rfl h⟩, rfl, rfl, rfl, by decide, rfl⟩ "utf-8" rfl mm_known (by decide) wordOuter_each
  obtain ⟨env', h1, h2, h3, h4, h5⟩ := faithful_of (hN N (Nat.le_refl _)) fsRead_bytes
  refine ⟨env', h1, ?_, ?_, (h4 _ _).mpr (envRead_holds _), h5⟩
  · rw [h2]
    intro q
    show _ ≤ _
    simp [envRead, Env.deep]
    positivity
  · rw [h3]
    intro x
    simp [envRead, Env.deep, wConfig]

/-- not vacuous: Word to Formex -/
example : ∃ (env : Env), Faithful env ∧ Holds env fsRead "a.xml" (withTables wordMerge) ∧
    (convertFile env .ooxml2formex [("styles_path", .str "s.xml"), ("detect_titles", .bool true), ("cals_ns", .none)] "a.xml" "b.xml" fsRead).result = .ok () := by
  have hne : OoxmlSpec.kids ["tr"] wordMerge ≠ [] := by
    intro h
    have : (OoxmlSpec.kids ["tr"] wordMerge).length = 4 := by decide +kernel
    rw [h] at this; cases this
  obtain ⟨N, hN⟩ := C99_word_to_formex_succeeds (envRead (withTables wordMerge)) (fun _ _ => ⟨_, rfl⟩)
    [("styles_path", .str "s.xml"), ("detect_titles", .bool true), ("cals_ns", .none)] "a.xml" "b.xml" fsRead
    (withTables wordMerge) (envRead_holds _) (some sheetDemo) ⟨some "s.xml", rfl, sheetDemo, ⟨[4], rfl, rfl⟩, rfl⟩ ⟨true, false, none, ['m', 'm'], id⟩
    ⟨rfl, ⟨_, rfl⟩, rfl, rfl, rfl, rfl⟩ "utf-8" rfl (fun h => nomatch h) (by decide) withTables_free (by
      refine withTables_each (by decide) ?_ ?_ <;>
      exact ⟨Ooxml.stylesOf, Ooxml.natureOf, 3, wordMerge_good, hne, wordMerge_forFormex, wordMerge_noInner, fun h => nomatch h⟩)
  obtain ⟨env', h1, h2, h3, h4, h5⟩ := faithful_of (hN N (Nat.le_refl _)) fsRead_bytes
  exact ⟨env', h1, (h4 _ _).mpr (envRead_holds _), h5⟩

/-- not vacuous: CALS to Formex -/
example : ∃ (env : Env), Faithful env ∧ Holds env fsRead "a.xml" (withTables footTable) ∧
    (convertFile env .cals2formex [("use_cals", .bool true), ("detect_titles", .str "yes"), ("cals_ns", .str "")] "a.xml" "b.xml" fsRead).result = .ok () := by
  obtain ⟨N, hN⟩ := C99_cals_to_formex_succeeds (envRead (withTables footTable)) (fun _ _ => ⟨_, rfl⟩)
    [("use_cals", .bool true), ("detect_titles", .str "yes"), ("cals_ns", .str "")] "a.xml" "b.xml" fsRead (withTables footTable)
    (envRead_holds _) none rfl ⟨true, true, none, ['m', 'm'], id⟩ ⟨rfl, ⟨_, rfl⟩, rfl, rfl, rfl, rfl⟩ "utf-8" rfl (by decide) withTables_free (fun _ => mm_known) (by
      refine withTables_each (by decide) ?_ ?_ <;>
      exact ⟨footDemo, 2, 3, _, rfl, footDemo_inCals, footDemo_forFormex, footDemo_accepted, fun _ => ⟨numbered_of (by decide +kernel), by decide +kernel⟩⟩)
  obtain ⟨env', h1, h2, h3, h4, h5⟩ := faithful_of (hN N (Nat.le_refl _)) fsRead_bytes
  exact ⟨env', h1, (h4 _ _).mpr (envRead_holds _), h5⟩

/-- not vacuous: Formex to CALS -/
example : ∃ (env : Env), Faithful env ∧ Holds env fsRead "a.xml" withFormex ∧
    (convertFile env .formex2cals [("cals_ns", .str "c"), ("embed_gr_notes", .bool true)] "a.xml" "b.xml" fsRead).result = .ok () := by
  obtain ⟨N, hN⟩ := C99_formex_to_cals_succeeds (envRead withFormex) (fun _ _ => ⟨_, rfl⟩) [("cals_ns", .str "c"), ("embed_gr_notes", .bool true)] "a.xml" "b.xml" fsRead
    withFormex (envRead_holds _) ⟨none, some "c", true⟩ rfl rfl rfl ⟨some "c", ['m', 'm'], false, ["header", "footer", "body"], id⟩
    ⟨rfl, ⟨none, rfl, fun h => absurd rfl h⟩, rfl, rfl, rfl, by decide, rfl⟩ "utf-8" rfl mm_known (by decide) withFormex_each
  obtain ⟨env', h1, h2, h3, h4, h5⟩ := faithful_of (hN N (Nat.le_refl _)) fsRead_bytes
  exact ⟨env', h1, (h4 _ _).mpr (envRead_holds _), h5⟩

end Benker.Files
