import Verif.Spec.TwiceFiles
import Verif.Props.Again

/-! C100 and C101 for files. -/

namespace Benker.Files
open PyM FileSpec CalsSpec FmxSpec Shown

theorem holds_unique {env : Env} {fs : FS} {path : String} {d d' : Node} (h : Holds env fs path d) (h' : Holds env fs path d') : d = d' := by
  obtain ⟨b, h1, h2⟩ := h
  obtain ⟨b', h3, h4⟩ := h'
  rw [h1] at h3
  cases h3
  rw [h2] at h4
  cases h4
  rfl

/-- **C100** for files, CALS to Formex to CALS: if both calls succeed, then the last file holds the document of the first one, where the tables are as C100 says. -/
theorem C100_file_cals_formex_cals (env : Env) (hf : Faithful env) (kw kw' : Kwargs) (src between dst : String) (fs : FS)
    (h : (convertFile env .cals2formex kw src between fs).result = .ok ())
    (h' : (convertFile env .formex2cals kw' between dst (atEnd fs (convertFile env .cals2formex kw src between fs))).result = .ok ()) :
    ∃ (doc mid out : Node) (ns : Option String) (bc : Fmx.Config) (pc : FmxP.Config) (cb : Cals.Config), Chain env .cals2formex .formex2cals kw kw' src between dst fs doc mid out ∧
      GivenName kw "cals_ns" none ns ∧ FormexOptions env kw bc ∧ GivenName kw' "formex_ns" none pc.ns ∧ GivenName kw' "cals_ns" none pc.calsNs ∧
      pc.embedGrNotes = Switched kw' "embed_gr_notes" ∧ CalsOptions env kw' cb ∧
      (pc.ns = none → pc.embedGrNotes = false → (bc.useCals = true → pc.calsNs = bc.calsNs) → doc.tag? ≠ some ⟨ns, "table"⟩ →
        FreeAround (· = ⟨ns, "table"⟩) (["TBL", "CORPUS", "ROW", "BLK"].map name) doc →
        Around (· = ⟨ns, "table"⟩) (fun _ T B => CalsThroughFormex (RawApart (Convert.cals2formex ⟨ns, bc.widthUnit, env.fl⟩ bc) env.depth doc) ns pc.calsNs bc cb T B) [] doc out) := by
  obtain ⟨bc, pc, doc, mid, out, h1, h2, h3, h4, h5, h6⟩ := C96_cals_to_formex env hf kw src between fs h
  obtain ⟨cb, fp, doc', back, g1, g2, g3, g4, g5⟩ := C96_formex_to_cals env hf kw' between dst _ h'
  cases holds_unique h6 g3
  unfold calsParser at h2
  obtain ⟨ns, k1, h2⟩ := bind_ok h2
  obtain ⟨u, k2, h2⟩ := bind_ok h2
  cases h2
  obtain ⟨s, hs⟩ := calsBuilder_new g1
  unfold formexParser at g2
  obtain ⟨fns, k3, g2⟩ := bind_ok g2
  obtain ⟨cals, k4, g2⟩ := bind_ok g2
  cases g2
  refine ⟨doc, out, back, ns, bc, ⟨fns, cals, (opt kw' "embed_gr_notes" (.bool false)).truth⟩, cb, ⟨h, h', h3, h6, g5⟩, (textOrNone_iff (by rfl)).mp k1, formexOptions_iff.mp h1, (textOrNone_iff (by rfl)).mp k3,
    (textOrNone_iff (by rfl)).mp k4, truth_eq, calsOptions_iff.mp g1, ?_⟩
  intro e1 e2 e3 hr hfr
  have hu := same_unit h1 k2
  exact (C100_cals_formex_cals ⟨ns, u.toList, env.fl⟩ bc doc mid out back _ _ hr hfr h4 h5 ⟨⟨fns, cals, _⟩, cb⟩ cals e3 (by simp only at e1 e2 ⊢; rw [e1, e2]) cb.ns cb.widthUnit
    cb.tableInTgroup s cb.fl hs g4).imp (fun _ _ _ h => ⟨h.1, fun hap => h.2 (hap mid (by rw [hu]; exact h4))⟩)

/-- **C100** for files, Word to Formex to CALS -/
theorem C100_file_word_formex_cals (env : Env) (hf : Faithful env) (kw kw' : Kwargs) (src between dst : String) (fs : FS)
    (h : (convertFile env .ooxml2formex kw src between fs).result = .ok ())
    (h' : (convertFile env .formex2cals kw' between dst (atEnd fs (convertFile env .ooxml2formex kw src between fs))).result = .ok ()) :
    ∃ (doc mid out : Node) (styles : Option Node) (bc : Fmx.Config) (pc : FmxP.Config) (cb : Cals.Config), Chain env .ooxml2formex .formex2cals kw kw' src between dst fs doc mid out ∧
      GivenStyles env fs kw doc styles ∧ FormexOptions env kw bc ∧ GivenName kw' "formex_ns" none pc.ns ∧ GivenName kw' "cals_ns" none pc.calsNs ∧
      pc.embedGrNotes = Switched kw' "embed_gr_notes" ∧ CalsOptions env kw' cb ∧
      (pc.ns = none → pc.embedGrNotes = false → (bc.useCals = true → pc.calsNs = bc.calsNs) → doc.tag? ≠ some (OoxmlSpec.name "tbl") →
        FreeAround (· = OoxmlSpec.name "tbl") (["TBL", "CORPUS", "ROW", "BLK"].map name) doc →
        Around (· = OoxmlSpec.name "tbl") (fun following T B => WordThroughFormex (RawApart (Convert.ooxml2formex ⟨env.float, env.fl, env.repr, env.recursion, styles⟩ bc) env.depth doc)
          ⟨env.float, env.fl, env.repr, env.recursion, styles⟩ pc.calsNs bc cb
          (Convert.firstSectList following) T B) [] doc out) := by
  obtain ⟨bc, path, styles, doc, mid, out, h1, h2, h3, h4, h5, h6, h7⟩ := C96_word_to_formex env hf kw src between fs h
  obtain ⟨cb, fp, doc', back, g1, g2, g3, g4, g5⟩ := C96_formex_to_cals env hf kw' between dst _ h'
  cases holds_unique h7 g3
  obtain ⟨s, hs⟩ := calsBuilder_new g1
  unfold formexParser at g2
  obtain ⟨fns, k3, g2⟩ := bind_ok g2
  obtain ⟨cals, k4, g2⟩ := bind_ok g2
  cases g2
  refine ⟨doc, out, back, styles, bc, ⟨fns, cals, (opt kw' "embed_gr_notes" (.bool false)).truth⟩, cb, ⟨h, h', h3, h7, g5⟩, styles_given h4 h2, formexOptions_iff.mp h1, (textOrNone_iff (by rfl)).mp k3,
    (textOrNone_iff (by rfl)).mp k4, truth_eq, calsOptions_iff.mp g1, ?_⟩
  intro e1 e2 e3 hr hfr
  exact (C100_word_formex_cals _ bc doc mid out back _ _ hr hfr h5 h6 ⟨⟨fns, cals, _⟩, cb⟩ cals e3 (by simp only at e1 e2 ⊢; rw [e1, e2]) cb.ns cb.widthUnit
    cb.tableInTgroup s cb.fl hs g4).imp (fun _ _ _ h => ⟨h.1, fun hap => h.2 (hap mid h5)⟩)

/-- **C100** for files, Word to CALS to Formex -/
theorem C100_file_word_cals_formex (env : Env) (hf : Faithful env) (kw kw' : Kwargs) (src between dst : String) (fs : FS)
    (h : (convertFile env .ooxml2cals kw src between fs).result = .ok ())
    (h' : (convertFile env .cals2formex kw' between dst (atEnd fs (convertFile env .ooxml2cals kw src between fs))).result = .ok ()) :
    ∃ (doc mid out : Node) (styles : Option Node) (cb : Cals.Config) (ns : Option String) (bc : Fmx.Config), Chain env .ooxml2cals .cals2formex kw kw' src between dst fs doc mid out ∧
      GivenStyles env fs kw doc styles ∧ CalsOptions env kw cb ∧ GivenName kw' "cals_ns" none ns ∧ FormexOptions env kw' bc ∧
      (ns = cb.ns → bc.useCals = false → doc.tag? ≠ some (OoxmlSpec.name "tbl") →
        FreeAround (· = OoxmlSpec.name "tbl") (⟨cb.ns, "table"⟩ :: ["TBL", "CORPUS", "ROW"].map name) doc →
        Around (· = OoxmlSpec.name "tbl") (fun following T F => WordThroughCals (RawApart (Convert.cals2formex ⟨ns, bc.widthUnit, env.fl⟩ bc) env.depth mid)
          ⟨env.float, env.fl, env.repr, env.recursion, styles⟩ cb bc
          (Convert.firstSectList following) T F) [] doc out) := by
  obtain ⟨cb, path, styles, doc, mid, h1, h2, h3, h4, h5, h6⟩ := C96_word_to_cals env hf kw src between fs h
  obtain ⟨bc, pc, doc', mid', out, g1, g2, g3, g4, g5, g6⟩ := C96_cals_to_formex env hf kw' between dst _ h'
  cases holds_unique h6 g3
  obtain ⟨s, hs⟩ := calsBuilder_new h1
  unfold calsParser at g2
  obtain ⟨ns, k1, g2⟩ := bind_ok g2
  obtain ⟨u, k2, g2⟩ := bind_ok g2
  cases g2
  refine ⟨doc, mid, out, styles, cb, ns, bc, ⟨h, h', h3, h6, g6⟩, styles_given h4 h2, calsOptions_iff.mp h1, (textOrNone_iff (by rfl)).mp k1, formexOptions_iff.mp g1, ?_⟩
  intro e1 e2 hr hfr
  have hu := same_unit g1 k2
  exact (C100_word_cals_formex _ cb cb.ns cb.widthUnit cb.tableInTgroup s cb.fl hs doc mid mid' out _ _ hr hfr h5 ⟨ns, u.toList, env.fl⟩ e1 bc e2 g4 g5).imp
    (fun _ _ _ h => ⟨h.1, fun hap => h.2 (hap mid' (by rw [hu]; exact g4))⟩)

/-- **C100** for files, Formex to CALS to Formex -/
theorem C100_file_formex_cals_formex (env : Env) (hf : Faithful env) (kw kw' : Kwargs) (src between dst : String) (fs : FS)
    (h : (convertFile env .formex2cals kw src between fs).result = .ok ())
    (h' : (convertFile env .cals2formex kw' between dst (atEnd fs (convertFile env .formex2cals kw src between fs))).result = .ok ()) :
    ∃ (doc mid out : Node) (pc : FmxP.Config) (cb : Cals.Config) (ns : Option String) (bc : Fmx.Config), Chain env .formex2cals .cals2formex kw kw' src between dst fs doc mid out ∧
      GivenName kw "formex_ns" none pc.ns ∧ GivenName kw "cals_ns" none pc.calsNs ∧ pc.embedGrNotes = Switched kw "embed_gr_notes" ∧ CalsOptions env kw cb ∧
      GivenName kw' "cals_ns" none ns ∧ FormexOptions env kw' bc ∧
      (pc.ns = none → pc.embedGrNotes = false → ns = cb.ns → bc.useCals = false →
        FreeAround (· = name "TBL") (⟨cb.ns, "table"⟩ :: ["CORPUS", "ROW", "BLK"].map name) doc →
        Around (· = name "TBL") (fun _ T F => FormexThroughCals (RawApart (Convert.cals2formex ⟨ns, bc.widthUnit, env.fl⟩ bc) env.depth mid) pc.calsNs cb bc T F) [] doc out) := by
  obtain ⟨cb, fp, doc, mid, h1, h2, h3, h4, h5⟩ := C96_formex_to_cals env hf kw src between fs h
  obtain ⟨bc, pc, doc', mid', out, g1, g2, g3, g4, g5, g6⟩ := C96_cals_to_formex env hf kw' between dst _ h'
  cases holds_unique h5 g3
  obtain ⟨s, hs⟩ := calsBuilder_new h1
  unfold calsParser at g2
  obtain ⟨ns, k1, g2⟩ := bind_ok g2
  obtain ⟨u, k2, g2⟩ := bind_ok g2
  cases g2
  unfold formexParser at h2
  obtain ⟨fns, k3, h2⟩ := bind_ok h2
  obtain ⟨cals, k4, h2⟩ := bind_ok h2
  cases h2
  refine ⟨doc, mid, out, ⟨fns, cals, (opt kw "embed_gr_notes" (.bool false)).truth⟩, cb, ns, bc, ⟨h, h', h3, h5, g6⟩, (textOrNone_iff (by rfl)).mp k3, (textOrNone_iff (by rfl)).mp k4, truth_eq, calsOptions_iff.mp h1,
    (textOrNone_iff (by rfl)).mp k1, formexOptions_iff.mp g1, ?_⟩
  intro e1 e2 e3 e4 hfr
  have hu := same_unit g1 k2
  exact (C100_formex_cals_formex ⟨⟨fns, cals, _⟩, cb⟩ cals (by simp only at e1 e2 ⊢; rw [e1, e2]) cb.ns cb.widthUnit cb.tableInTgroup s cb.fl hs doc mid mid' out _ _ hfr h4
    ⟨ns, u.toList, env.fl⟩ e3 bc e4 g4 g5).imp (fun _ _ _ h => ⟨h.1, fun hap => h.2 (hap mid' (by rw [hu]; exact g4))⟩)

/-! ### converting again -/

theorem written {env : Env} {kind : Kind} {kw : Kwargs} {src dst : String} {fs : FS} (h : (convertFile env kind kw src dst fs).result = .ok ()) (hf : Faithful env) {doc : Node}
    (hd : Holds env (atEnd fs (convertFile env kind kw src dst fs)) dst doc) : ∃ enc chunks, encoding kw = .ok enc ∧ env.write enc doc = .ok chunks ∧
      atEnd fs (convertFile env kind kw src dst fs) dst = some chunks.flatten := by
  cases hc : output env kind kw src fs with
  | error e => unfold convertFile at h; rw [hc] at h; cases h
  | ok chunks =>
    obtain ⟨job, enc, out, h1, h2, h3, h4⟩ := output_ok hc
    have he : atEnd fs (convertFile env kind kw src dst fs) dst = some chunks.flatten := by rw [run_end hc]; simp [put]
    have : doc = out := holds_unique hd ⟨chunks.flatten, he, hf enc out chunks h4⟩
    exact ⟨enc, chunks, h2, by rw [this]; exact h4, he⟩

/-- the same document, written twice with the same encoding -/
theorem same_bytes {env : Env} (hf : Faithful env) {kind kind' : Kind} {kw kw' : Kwargs} {src between dst : String} {fs : FS} {doc mid : Node}
    (h : Chain env kind kind' kw kw' src between dst fs doc mid mid) (he : encoding kw' = encoding kw) :
    let fs₁ := atEnd fs (convertFile env kind kw src between fs)
    atEnd fs₁ (convertFile env kind' kw' between dst fs₁) dst = fs₁ between := by
  obtain ⟨h1, h2, h3, h4, h5⟩ := h
  obtain ⟨e1, c1, a1, a2, a3⟩ := written h1 hf h4
  obtain ⟨e2, c2, b1, b2, b3⟩ := written h2 hf h5
  rw [he, a1] at b1
  cases b1
  rw [a2] at b2
  cases b2
  intro fs₁
  rw [b3]
  exact a3.symm

/-- **C101** for files, Word to CALS: if the file which a conversion has made is converted again, with any options, then the result is the same document; with the same encoding,
it is the same file, byte for byte. -/
theorem C101_file_word_to_cals (env : Env) (hf : Faithful env) (kw kw' : Kwargs) (src between dst : String) (fs : FS)
    (h : (convertFile env .ooxml2cals kw src between fs).result = .ok ())
    (h' : (convertFile env .ooxml2cals kw' between dst (atEnd fs (convertFile env .ooxml2cals kw src between fs))).result = .ok ()) :
    (∃ doc out, Chain env .ooxml2cals .ooxml2cals kw kw' src between dst fs doc out out) ∧
    (encoding kw' = encoding kw → let fs₁ := atEnd fs (convertFile env .ooxml2cals kw src between fs)
      atEnd fs₁ (convertFile env .ooxml2cals kw' between dst fs₁) dst = fs₁ between) := by
  obtain ⟨cb, path, styles, doc, out, h1, h2, h3, h4, h5, h6⟩ := C96_word_to_cals env hf kw src between fs h
  obtain ⟨cb', path', styles', doc', out', g1, g2, g3, g4, g5, g6⟩ := C96_word_to_cals env hf kw' between dst _ h'
  cases holds_unique h6 g3
  cases (C101_word_to_cals _ _ cb cb' _ doc out h5).2 _ _ g5
  have hch : Chain env .ooxml2cals .ooxml2cals kw kw' src between dst fs doc out out := ⟨h, h', h3, h6, g6⟩
  exact ⟨⟨doc, out, hch⟩, same_bytes hf hch⟩

/-- **C101** for files, Formex to CALS: the same, with the same Formex namespace -/
theorem C101_file_formex_to_cals (env : Env) (hf : Faithful env) (kw kw' : Kwargs) (hns : Dict.get? kw' "formex_ns" = Dict.get? kw "formex_ns") (src between dst : String) (fs : FS)
    (h : (convertFile env .formex2cals kw src between fs).result = .ok ())
    (h' : (convertFile env .formex2cals kw' between dst (atEnd fs (convertFile env .formex2cals kw src between fs))).result = .ok ()) :
    (∃ doc out, Chain env .formex2cals .formex2cals kw kw' src between dst fs doc out out) ∧
    (encoding kw' = encoding kw → let fs₁ := atEnd fs (convertFile env .formex2cals kw src between fs)
      atEnd fs₁ (convertFile env .formex2cals kw' between dst fs₁) dst = fs₁ between) := by
  obtain ⟨cb, pc, doc, out, h1, h2, h3, h4, h5⟩ := C96_formex_to_cals env hf kw src between fs h
  obtain ⟨cb', pc', doc', out', g1, g2, g3, g4, g5⟩ := C96_formex_to_cals env hf kw' between dst _ h'
  cases holds_unique h5 g3
  have e : pc'.ns = pc.ns := by
    unfold formexParser at h2 g2
    obtain ⟨a, k1, h2⟩ := bind_ok h2
    obtain ⟨_, _, h2⟩ := bind_ok h2
    obtain ⟨b, k2, g2⟩ := bind_ok g2
    obtain ⟨_, _, g2⟩ := bind_ok g2
    cases h2
    cases g2
    unfold opt at k1 k2
    rw [hns, k1] at k2
    cases k2
    rfl
  cases (C101_formex_to_cals ⟨pc, cb⟩ ⟨pc', cb'⟩ e _ doc out h4).2 _ _ g4
  have hch : Chain env .formex2cals .formex2cals kw kw' src between dst fs doc out out := ⟨h, h', h3, h5, g5⟩
  exact ⟨⟨doc, out, hch⟩, same_bytes hf hch⟩

/-- **C101** for files, CALS to Formex: the same options, except perhaps the encoding, the unit, the titles and the CALS attributes -/
theorem C101_file_cals_to_formex_partial (env : Env) (hf : Faithful env) (kw kw' : Kwargs) (hns : Dict.get? kw' "cals_ns" = Dict.get? kw "cals_ns") (src between dst : String) (fs : FS)
    (h : (convertFile env .cals2formex kw src between fs).result = .ok ())
    (h' : (convertFile env .cals2formex kw' between dst (atEnd fs (convertFile env .cals2formex kw src between fs))).result = .ok ()) :
    ∃ (doc out out' : Node) (ns : Option String) (bc : Fmx.Config), Chain env .cals2formex .cals2formex kw kw' src between dst fs doc out out' ∧ GivenName kw "cals_ns" none ns ∧
      FormexOptions env kw bc ∧
      (doc.tag? ≠ some ⟨ns, "table"⟩ → FreeAround (· = ⟨ns, "table"⟩) (["TBL", "CORPUS", "ROW"].map name) doc → Calm bc.calsNs out →
        out' = out ∧ (encoding kw' = encoding kw → let fs₁ := atEnd fs (convertFile env .cals2formex kw src between fs)
          atEnd fs₁ (convertFile env .cals2formex kw' between dst fs₁) dst = fs₁ between)) := by
  obtain ⟨bc, pc, doc, mid, out, h1, h2, h3, h4, h5, h6⟩ := C96_cals_to_formex env hf kw src between fs h
  obtain ⟨bc', pc', doc', mid', out', g1, g2, g3, g4, g5, g6⟩ := C96_cals_to_formex env hf kw' between dst _ h'
  cases holds_unique h6 g3
  have e1 : pc'.ns = pc.ns := by
    unfold calsParser at h2 g2
    obtain ⟨a, k1, h2⟩ := bind_ok h2
    obtain ⟨_, _, h2⟩ := bind_ok h2
    obtain ⟨b, k2, g2⟩ := bind_ok g2
    obtain ⟨_, _, g2⟩ := bind_ok g2
    cases h2
    cases g2
    unfold opt at k1 k2
    rw [hns, k1] at k2
    cases k2
    rfl
  have e2 : bc'.calsNs = bc.calsNs := by
    unfold formexBuilder at h1 g1
    obtain ⟨a, k1, h1⟩ := bind_ok h1
    obtain ⟨_, _, h1⟩ := bind_ok h1
    obtain ⟨_, _, h1⟩ := bind_ok h1
    obtain ⟨b, k2, g1⟩ := bind_ok g1
    obtain ⟨_, _, g1⟩ := bind_ok g1
    obtain ⟨_, _, g1⟩ := bind_ok g1
    cases h1
    cases g1
    unfold opt at k1 k2
    rw [hns, k1] at k2
    cases k2
    rfl
  refine ⟨doc, out, out', pc.ns, bc, ⟨h, h', h3, h6, g6⟩, ?_, formexOptions_iff.mp h1, ?_⟩
  · unfold calsParser at h2
    obtain ⟨a, k1, h2⟩ := bind_ok h2
    obtain ⟨_, _, h2⟩ := bind_ok h2
    cases h2
    exact (textOrNone_iff (by rfl)).mp k1
  · rintro hr hfr ⟨c1, c2, c3⟩
    obtain ⟨_, k1, k2⟩ := C101_cals_to_formex_partial pc pc' bc bc' e1 e2 doc mid out _ hr hfr h4 h5 c1 c2 c3
    cases k1 _ _ g4
    rw [g5] at k2
    cases k2
    have hch : Chain env .cals2formex .cals2formex kw kw' src between dst fs doc out out := ⟨h, h', h3, h6, g6⟩
    exact ⟨rfl, same_bytes hf hch⟩

/-- **C101** for files, Word to Formex -/
theorem C101_file_word_to_formex_partial (env : Env) (hf : Faithful env) (kw kw' : Kwargs) (hns : Dict.get? kw' "cals_ns" = Dict.get? kw "cals_ns") (src between dst : String) (fs : FS)
    (h : (convertFile env .ooxml2formex kw src between fs).result = .ok ())
    (h' : (convertFile env .ooxml2formex kw' between dst (atEnd fs (convertFile env .ooxml2formex kw src between fs))).result = .ok ()) :
    ∃ (doc out out' : Node) (bc : Fmx.Config), Chain env .ooxml2formex .ooxml2formex kw kw' src between dst fs doc out out' ∧ FormexOptions env kw bc ∧
      (doc.tag? ≠ some (OoxmlSpec.name "tbl") → FreeAround (· = OoxmlSpec.name "tbl") (["TBL", "CORPUS", "ROW"].map name) doc → Calm bc.calsNs out →
        out' = out ∧ (encoding kw' = encoding kw → let fs₁ := atEnd fs (convertFile env .ooxml2formex kw src between fs)
          atEnd fs₁ (convertFile env .ooxml2formex kw' between dst fs₁) dst = fs₁ between)) := by
  obtain ⟨bc, path, styles, doc, mid, out, h1, h2, h3, h4, h5, h6, h7⟩ := C96_word_to_formex env hf kw src between fs h
  obtain ⟨bc', path', styles', doc', mid', out', g1, g2, g3, g4, g5, g6, g7⟩ := C96_word_to_formex env hf kw' between dst _ h'
  cases holds_unique h7 g3
  have e2 : bc'.calsNs = bc.calsNs := by
    unfold formexBuilder at h1 g1
    obtain ⟨a, k1, h1⟩ := bind_ok h1
    obtain ⟨_, _, h1⟩ := bind_ok h1
    obtain ⟨_, _, h1⟩ := bind_ok h1
    obtain ⟨b, k2, g1⟩ := bind_ok g1
    obtain ⟨_, _, g1⟩ := bind_ok g1
    obtain ⟨_, _, g1⟩ := bind_ok g1
    cases h1
    cases g1
    unfold opt at k1 k2
    rw [hns, k1] at k2
    cases k2
    rfl
  refine ⟨doc, out, out', bc, ⟨h, h', h3, h7, g7⟩, formexOptions_iff.mp h1, ?_⟩
  rintro hr hfr ⟨c1, c2, c3⟩
  obtain ⟨_, k1, k2⟩ := C101_word_to_formex_partial _ ⟨env.float, env.fl, env.repr, env.recursion, styles'⟩ bc bc' e2 doc mid out _ hr hfr h5 h6 c1 c2 c3
  cases k1 _ _ g5
  rw [g6] at k2
  cases k2
  have hch : Chain env .ooxml2formex .ooxml2formex kw kw' src between dst fs doc out out := ⟨h, h', h3, h7, g7⟩
  exact ⟨rfl, same_bytes hf hch⟩

/-! ### examples -/

theorem output_c2f {env : Env} {kw : Kwargs} {src enc : String} {fs : FS} {doc mid out : Node} {bc : Fmx.Config} {pc : CalsP.Config} (hr : readFile env fs src = .ok doc)
    (hb : formexBuilder env kw = .ok bc) (hp : calsParser env kw = .ok pc) (he : encoding kw = .ok enc)
    (ht : Convert.transformTables (Convert.cals2formex pc bc) env.depth doc = .ok mid) (hf : Fmx.finalize bc mid = .ok out) :
    output env .cals2formex kw src fs = env.write enc out := by
  unfold output prepare
  rw [hb, ok_bind, hp, ok_bind]
  show (do let e ← encoding kw; let d ← (do let d ← readFile env fs src; let d ← Convert.transformTables (Convert.cals2formex pc bc) env.depth d; Fmx.finalize bc d); env.write e d) = _
  rw [he, ok_bind, hr, ok_bind, ht, ok_bind, hf, ok_bind]

theorem output_f2c {env : Env} {kw : Kwargs} {src enc : String} {fs : FS} {doc out : Node} {bc : Cals.Config} {pc : FmxP.Config} (hr : readFile env fs src = .ok doc)
    (hb : calsBuilder env kw = .ok bc) (hp : formexParser kw = .ok pc) (he : encoding kw = .ok enc)
    (ht : Fmx2Cals.transformTables ⟨pc, bc⟩ env.depth doc = .ok out) :
    output env .formex2cals kw src fs = env.write enc out := by
  unfold output prepare
  rw [hb, ok_bind, hp, ok_bind]
  show (do let e ← encoding kw; let d ← (do let d ← readFile env fs src; Fmx2Cals.transformTables ⟨pc, bc⟩ env.depth d); env.write e d) = _
  rw [he, ok_bind, hr, ok_bind, ht, ok_bind]

theorem output_o2c {env : Env} {kw : Kwargs} {src enc : String} {fs : FS} {doc out : Node} {bc : Cals.Config} {path : Option String} {styles : Option Node}
    (hr : readFile env fs src = .ok doc) (hb : calsBuilder env kw = .ok bc) (hp : stylesPath kw = .ok path) (hs : wordStyles env fs path doc = .ok styles)
    (he : encoding kw = .ok enc) (ht : Convert.transformTables (Convert.ooxml2cals ⟨env.float, env.fl, env.repr, env.recursion, styles⟩ bc) env.depth doc = .ok out) :
    output env .ooxml2cals kw src fs = env.write enc out := by
  unfold output prepare
  rw [hb, ok_bind, hp, ok_bind]
  show (do let e ← encoding kw; let d ← (do let d ← readFile env fs src; let s ← wordStyles env fs path d; Convert.transformTables (Convert.ooxml2cals
    ⟨env.float, env.fl, env.repr, env.recursion, s⟩ bc) env.depth d); env.write e d) = _
  rw [he, ok_bind, hr, ok_bind, hs, ok_bind, ht, ok_bind]

theorem output_o2f {env : Env} {kw : Kwargs} {src enc : String} {fs : FS} {doc mid out : Node} {bc : Fmx.Config} {path : Option String} {styles : Option Node}
    (hr : readFile env fs src = .ok doc) (hb : formexBuilder env kw = .ok bc) (hp : stylesPath kw = .ok path) (hs : wordStyles env fs path doc = .ok styles)
    (he : encoding kw = .ok enc) (ht : Convert.transformTables (Convert.ooxml2formex ⟨env.float, env.fl, env.repr, env.recursion, styles⟩ bc) env.depth doc = .ok mid)
    (hf : Fmx.finalize bc mid = .ok out) : output env .ooxml2formex kw src fs = env.write enc out := by
  unfold output prepare
  rw [hb, ok_bind, hp, ok_bind]
  show (do let e ← encoding kw; let d ← (do let d ← readFile env fs src; let s ← wordStyles env fs path d; let d ← (Convert.transformTables
    (Convert.ooxml2formex ⟨env.float, env.fl, env.repr, env.recursion, s⟩ bc) env.depth d); Fmx.finalize bc d); env.write e d) = _
  rw [he, ok_bind, hr, ok_bind, hs, ok_bind, ht, ok_bind, hf, ok_bind]

open Classical in
/-- a library which knows three documents, and the stylesheet of the examples -/
noncomputable def envThree (doc mid out : Node) : Env where
  read b := if b = [1] then .ok doc else if b = [2, 3] then .ok mid else if b = [5] then .ok out else if b = [4] then .ok sheetDemo else .error .valueError
  write _ n := if n = mid then .ok [[2], [3]] else if n = out then .ok [[5]] else .error .valueError
  fl := id
  float := wConfig.float
  repr := wConfig.repr
  recursion := wConfig.limit
  depth := 100

theorem envThree_faithful (doc mid out : Node) : Faithful (envThree doc mid out) := by
  intro enc n chunks h
  simp only [envThree] at h ⊢
  split at h
  · cases h; simp_all
  · split at h
    · cases h; simp_all
    · cases h

theorem envThree_chain {doc mid out : Node} {kind kind' : Kind} {kw kw' : Kwargs} {enc enc' : String}
    (h : readFile (envThree doc mid out) fsRead "a.xml" = .ok doc → output (envThree doc mid out) kind kw "a.xml" fsRead = (envThree doc mid out).write enc mid)
    (h' : ∀ fs, readFile (envThree doc mid out) fs "b.xml" = .ok mid → readFile (envThree doc mid out) fs "s.xml" = .ok sheetDemo →
      output (envThree doc mid out) kind' kw' "b.xml" fs = (envThree doc mid out).write enc' out) :
    Faithful (envThree doc mid out) ∧ Chain (envThree doc mid out) kind kind' kw kw' "a.xml" "b.xml" "c.xml" fsRead doc mid out := by
  have e1 : output (envThree doc mid out) kind kw "a.xml" fsRead = .ok [[2], [3]] := by
    rw [h (by simp [readFile, fsRead, envThree])]
    simp [envThree]
  have hm : atEnd fsRead (convertFile (envThree doc mid out) kind kw "a.xml" "b.xml" fsRead) "b.xml" = some [2, 3] := by rw [run_end e1]; simp [put]
  have hs : atEnd fsRead (convertFile (envThree doc mid out) kind kw "a.xml" "b.xml" fsRead) "s.xml" = some [4] := by rw [run_end e1]; simp [put, fsRead]
  have e2 : ∃ chunks, output (envThree doc mid out) kind' kw' "b.xml" (atEnd fsRead (convertFile (envThree doc mid out) kind kw "a.xml" "b.xml" fsRead)) = .ok chunks ∧
      (envThree doc mid out).read chunks.flatten = .ok out := by
    rw [h' _ (by simp [readFile, hm]; simp [envThree]) (by simp [readFile, hs]; simp [envThree])]
    by_cases e : out = mid
    · exact ⟨[[2], [3]], by simp [envThree, e], by simp [envThree, e]⟩
    · exact ⟨[[5]], by simp [envThree, e], by simp [envThree]⟩
  obtain ⟨chunks, e2, e3⟩ := e2
  refine ⟨envThree_faithful _ _ _, ?_, ?_, ⟨[1], by simp [fsRead], by simp [envThree]⟩, ⟨[2, 3], hm, by simp [envThree]⟩, ⟨chunks.flatten, ?_, e3⟩⟩
  · unfold convertFile; rw [e1]
  · unfold convertFile at e2 ⊢; rw [e2]
  · rw [run_end e2]; simp [put]

/-- not vacuous: CALS to Formex to CALS, with the documents and the options of the example of C100 -/
example : ∃ (env : Env) (mid out : Node), Faithful env ∧ Chain env .cals2formex .formex2cals [("detect_titles", .bool true), ("encoding", .str "utf-8")] [] "a.xml" "b.xml" "c.xml" fsRead
    (withTables footTable) mid out := by
  obtain ⟨mid, out, back, h1, h2, h3, _⟩ := throughFormex_ok (show throughFormex (Convert.cals2formex ⟨none, ['m', 'm'], id⟩ ⟨true, false, some calsNs, ['m', 'm'], id⟩)
    ⟨true, false, some calsNs, ['m', 'm'], id⟩ ⟨⟨none, none, false⟩, calsConfig⟩ (withTables footTable) = true by decide +kernel)
  exact ⟨_, out, back, envThree_chain (fun hr => output_c2f hr rfl rfl rfl h1 h2) (fun _ hr _ => output_f2c hr rfl rfl rfl h3)⟩

/-- not vacuous: Word to Formex to CALS -/
example : ∃ (env : Env) (mid out : Node), Faithful env ∧ Chain env .ooxml2formex .formex2cals [("styles_path", .str "s.xml"), ("detect_titles", .bool true)] [] "a.xml" "b.xml" "c.xml" fsRead
    (withTables wordMerge) mid out := by
  obtain ⟨mid, out, back, h1, h2, h3, _⟩ := throughFormex_ok (show throughFormex (Convert.ooxml2formex wConfig ⟨true, false, some calsNs, ['m', 'm'], id⟩)
    ⟨true, false, some calsNs, ['m', 'm'], id⟩ ⟨⟨none, none, false⟩, calsConfig⟩ (withTables wordMerge) = true by decide +kernel)
  exact ⟨_, out, back, envThree_chain (fun hr => output_o2f (path := some "s.xml") (styles := some sheetDemo) hr rfl rfl (by
    simp [wordStyles, readFile, fsRead, envThree]; rfl) rfl h1 h2) (fun _ hr _ => output_f2c hr rfl rfl rfl h3)⟩

/-- not vacuous: Word to CALS to Formex -/
example : ∃ (env : Env) (mid out : Node), Faithful env ∧ Chain env .ooxml2cals .cals2formex [("styles_path", .str "s.xml")] [("detect_titles", .bool true)] "a.xml" "b.xml" "c.xml" fsRead
    (withTables wordMerge) mid out := by
  obtain ⟨cals, mid, out, h1, h2, h3, _⟩ := throughCals_ok (show throughCals (Convert.transformTables (Convert.ooxml2cals wConfig calsConfig) 100 (withTables wordMerge))
    (Convert.cals2formex ⟨none, ['m', 'm'], id⟩ ⟨true, false, some calsNs, ['m', 'm'], id⟩) ⟨true, false, some calsNs, ['m', 'm'], id⟩ = true by decide +kernel)
  exact ⟨_, cals, out, envThree_chain (fun hr => output_o2c (path := some "s.xml") (styles := some sheetDemo) hr rfl rfl (by
    simp [wordStyles, readFile, fsRead, envThree]; rfl) rfl h1) (fun _ hr _ => output_c2f hr rfl rfl rfl h2 h3)⟩

/-- not vacuous: Formex to CALS to Formex -/
example : ∃ (env : Env) (mid out : Node), Faithful env ∧ Chain env .formex2cals .cals2formex [("tgroup_sorting", .list ["header", "body", "footer"])] [("detect_titles", .bool true)]
    "a.xml" "b.xml" "c.xml" fsRead (withTables fmxBare) mid out := by
  obtain ⟨mid, back, out, h1, h2, h3, _⟩ := throughCals_ok (show throughCals (Fmx2Cals.transformTables ⟨⟨none, none, false⟩, ⟨none, ['m', 'm'], false, ["header", "body", "footer"], id⟩⟩ 100
    (withTables fmxBare)) (Convert.cals2formex ⟨none, ['m', 'm'], id⟩ ⟨true, false, some calsNs, ['m', 'm'], id⟩) ⟨true, false, some calsNs, ['m', 'm'], id⟩ = true by decide +kernel)
  exact ⟨_, mid, out, envThree_chain (fun hr => output_f2c hr rfl rfl rfl h1) (fun _ hr _ => output_c2f hr rfl rfl rfl h2 h3)⟩

theorem toOption_ok {α : Type} {x : Except PyErr α} {a : α} (h : x.toOption = some a) : x = .ok a := by
  cases x <;> cases h
  rfl

theorem twice_of {f g : Node → Option Node} {doc : Node} (h : ((f doc).bind g).isSome = true) : ∃ mid out, f doc = some mid ∧ g mid = some out := by
  cases h1 : f doc with
  | none => rw [h1] at h; cases h
  | some mid =>
    rw [h1] at h
    obtain ⟨out, h2⟩ := Option.isSome_iff_exists.mp h
    exact ⟨mid, out, rfl, h2⟩

/-- not vacuous: Word to CALS, twice, with other options -/
example : ∃ (env : Env) (mid out : Node), Faithful env ∧ Chain env .ooxml2cals .ooxml2cals [("styles_path", .str "s.xml")] [("styles_path", .str "s.xml"), ("cals_ns", .str "c")]
    "a.xml" "b.xml" "c.xml" fsRead (withTables wordMerge) mid out := by
  obtain ⟨mid, out, h1, h2⟩ := twice_of (f := fun n => (Convert.transformTables (Convert.ooxml2cals wConfig calsConfig) 100 n).toOption)
    (g := fun n => (Convert.transformTables (Convert.ooxml2cals wConfig ⟨some "c", ['m', 'm'], false, ["header", "footer", "body"], id⟩) 100 n).toOption) (doc := withTables wordMerge)
    (by decide +kernel)
  exact ⟨_, mid, out, envThree_chain (fun hr => output_o2c (path := some "s.xml") (styles := some sheetDemo) hr rfl rfl (by
    simp [wordStyles, readFile, fsRead, envThree]; rfl) rfl (toOption_ok h1)) (fun fs hr hs => output_o2c (path := some "s.xml") (styles := some sheetDemo) hr rfl rfl (by
      simp only [wordStyles, hs]; rfl) rfl (toOption_ok h2))⟩

/-- not vacuous: Formex to CALS, twice -/
example : ∃ (env : Env) (mid out : Node), Faithful env ∧ Chain env .formex2cals .formex2cals [] [("embed_gr_notes", .bool true)]
    "a.xml" "b.xml" "c.xml" fsRead (withTables fmxBare) mid out := by
  obtain ⟨mid, out, h1, h2⟩ := twice_of (f := fun n => (Fmx2Cals.transformTables ⟨⟨none, none, false⟩, calsConfig⟩ 100 n).toOption)
    (g := fun n => (Fmx2Cals.transformTables ⟨⟨none, none, true⟩, calsConfig⟩ 100 n).toOption) (doc := withTables fmxBare) (by decide +kernel)
  exact ⟨_, mid, out, envThree_chain (fun hr => output_f2c hr rfl rfl rfl (toOption_ok h1)) (fun _ hr _ => output_f2c hr rfl rfl rfl (toOption_ok h2))⟩

/-- not vacuous: CALS to Formex, twice, to a document which is calm -/
example : ∃ (env : Env) (mid out : Node), Faithful env ∧ Chain env .cals2formex .cals2formex [("detect_titles", .bool true)] [("width_unit", .str "cm")]
    "a.xml" "b.xml" "c.xml" fsRead (withTables footTable) mid out ∧ Calm (some calsNs) mid := by
  obtain ⟨mid, out, h1, h2⟩ := twice_of (f := formexOf (Convert.cals2formex ⟨none, ['m', 'm'], id⟩ ⟨true, false, some calsNs, ['m', 'm'], id⟩) ⟨true, false, some calsNs, ['m', 'm'], id⟩)
    (g := formexOf (Convert.cals2formex ⟨none, ['c', 'm'], id⟩ ⟨false, false, some calsNs, ['c', 'm'], id⟩) ⟨false, false, some calsNs, ['c', 'm'], id⟩) (doc := withTables footTable)
    (by decide +kernel)
  obtain ⟨mid', h3, h4⟩ := image_of (show (formexOf (Convert.cals2formex ⟨none, ['m', 'm'], id⟩ ⟨true, false, some calsNs, ['m', 'm'], id⟩) ⟨true, false, some calsNs, ['m', 'm'], id⟩
    (withTables footTable)).map (settledTest (some calsNs)) = some true by decide +kernel)
  rw [h1] at h3
  cases h3
  obtain ⟨m1, a1, a2⟩ := formexOf_ok h1
  obtain ⟨m2, b1, b2⟩ := formexOf_ok h2
  obtain ⟨k1, k2⟩ := envThree_chain (doc := withTables footTable) (mid := mid) (out := out) (kind := .cals2formex) (kind' := .cals2formex) (kw := [("detect_titles", .bool true)])
    (kw' := [("width_unit", .str "cm")]) (fun hr => output_c2f hr rfl rfl rfl a1 a2) (fun _ hr _ => output_c2f hr rfl rfl rfl b1 b2)
  exact ⟨_, mid, out, k1, k2, settledTest_ok h4⟩

/-- not vacuous: Word to Formex, twice -/
example : ∃ (env : Env) (mid out : Node), Faithful env ∧ Chain env .ooxml2formex .ooxml2formex [("styles_path", .str "s.xml")] [("styles_path", .str "s.xml"), ("use_cals", .bool true)]
    "a.xml" "b.xml" "c.xml" fsRead (withTables wordMerge) mid out ∧ Calm (some calsNs) mid := by
  obtain ⟨mid, out, h1, h2⟩ := twice_of (f := formexOf (Convert.ooxml2formex wConfig ⟨false, false, some calsNs, ['m', 'm'], id⟩) ⟨false, false, some calsNs, ['m', 'm'], id⟩)
    (g := formexOf (Convert.ooxml2formex wConfig ⟨false, true, some calsNs, ['m', 'm'], id⟩) ⟨false, true, some calsNs, ['m', 'm'], id⟩) (doc := withTables wordMerge)
    (by decide +kernel)
  obtain ⟨mid', h3, h4⟩ := image_of (show (formexOf (Convert.ooxml2formex wConfig ⟨false, false, some calsNs, ['m', 'm'], id⟩) ⟨false, false, some calsNs, ['m', 'm'], id⟩
    (withTables wordMerge)).map (settledTest (some calsNs)) = some true by decide +kernel)
  rw [h1] at h3
  cases h3
  obtain ⟨m1, a1, a2⟩ := formexOf_ok h1
  obtain ⟨m2, b1, b2⟩ := formexOf_ok h2
  obtain ⟨k1, k2⟩ := envThree_chain (doc := withTables wordMerge) (mid := mid) (out := out) (kind := .ooxml2formex) (kind' := .ooxml2formex) (kw := [("styles_path", .str "s.xml")])
    (kw' := [("styles_path", .str "s.xml"), ("use_cals", .bool true)]) (fun hr => output_o2f (path := some "s.xml") (styles := some sheetDemo) hr rfl rfl (by
      simp [wordStyles, readFile, fsRead, envThree]; rfl) rfl a1 a2) (fun _ hr hs => output_o2f (path := some "s.xml") (styles := some sheetDemo) hr rfl rfl (by
        simp only [wordStyles, hs]; rfl) rfl b1 b2)
  exact ⟨_, mid, out, k1, k2, settledTest_ok h4⟩

end Benker.Files
