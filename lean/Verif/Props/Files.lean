import Verif.Spec.Files
import Verif.Props.Conversion

/-! C96, C97: conversion of files, and its options. -/

namespace Benker
open Files FileSpec

/-! ### C96: the files -/

theorem appends_mem {fs : FS} {path : String} : ∀ {done : Bytes} {cs : List Bytes} {s : FS}, s ∈ appends fs path done cs →
    ∃ before after, cs = before ++ after ∧ s = put fs path (done ++ before.flatten)
  | done, c :: cs, s, h => by
    unfold appends at h
    rcases List.mem_cons.mp h with rfl | h
    · exact ⟨[c], cs, rfl, by simp⟩
    · obtain ⟨b, a, rfl, rfl⟩ := appends_mem h
      exact ⟨c :: b, a, rfl, by simp⟩

theorem appends_last {fs : FS} {path : String} : ∀ (done : Bytes) (cs : List Bytes) (d : FS), d = put fs path done →
    (appends fs path done cs).getLast?.getD d = put fs path (done ++ cs.flatten)
  | done, [], d, h => by simp [appends, h]
  | done, c :: cs, d, h => by
    unfold appends
    rw [List.getLast?_cons]
    have := appends_last (fs := fs) (done ++ c) cs (put fs path (done ++ c)) rfl
    cases hl : (appends fs path (done ++ c) cs).getLast? with
    | none => rw [hl] at this; simpa using this
    | some s => rw [hl] at this; simpa using this

theorem run_ok {env : Env} {kind : Kind} {kw : Kwargs} {src dst : String} {fs : FS} {chunks : List Bytes} (h : output env kind kw src fs = .ok chunks) :
    convertFile env kind kw src dst fs = ⟨.ok (), put fs dst [] :: appends fs dst [] chunks⟩ := by
  unfold convertFile; rw [h]

theorem run_end {env : Env} {kind : Kind} {kw : Kwargs} {src dst : String} {fs : FS} {chunks : List Bytes} (h : output env kind kw src fs = .ok chunks) :
    atEnd fs (convertFile env kind kw src dst fs) = put fs dst chunks.flatten := by
  rw [run_ok h]
  unfold atEnd
  simp only [List.getLast?_cons, Option.getD_some]
  exact appends_last [] chunks _ rfl

/-- **C96**: whatever happens during a conversion, and whenever it stops, no file has changed but the destination. -/
theorem C96_other_files (env : Env) (kind : Kind) (kw : Kwargs) (src dst : String) (fs s : FS) (h : Reached fs (convertFile env kind kw src dst fs) s) (p : String)
    (hp : p ≠ dst) : s p = fs p := by
  rcases h with rfl | h
  · rfl
  · unfold convertFile at h
    split at h
    · cases h
    · rcases List.mem_cons.mp h with rfl | h
      · simp [put, hp]
      · obtain ⟨_, _, _, rfl⟩ := appends_mem h
        simp [put, hp]

/-- **C96**: a conversion which raises an exception has changed no file at all. -/
theorem C96_failure (env : Env) (kind : Kind) (kw : Kwargs) (src dst : String) (fs s : FS) (e : PyErr)
    (he : (convertFile env kind kw src dst fs).result = .error e) (h : Reached fs (convertFile env kind kw src dst fs) s) : s = fs := by
  rcases h with h | h
  · exact h
  · unfold convertFile at h he
    split at h
    · cases h
    · rename_i chunks hc
      rw [hc] at he
      cases he

/-- **C96**: whenever the conversion stops, the destination is as it was, or it is a beginning of what the conversion writes. -/
theorem C96_interrupted (env : Env) (kind : Kind) (kw : Kwargs) (src dst : String) (fs s : FS) (h : Reached fs (convertFile env kind kw src dst fs) s) :
    s = fs ∨ ∃ beginning whole, s dst = some beginning ∧ atEnd fs (convertFile env kind kw src dst fs) dst = some whole ∧ beginning <+: whole := by
  rcases h with h | h
  · exact .inl h
  · right
    cases hc : output env kind kw src fs with
    | error e => unfold convertFile at h; rw [hc] at h; cases h
    | ok chunks =>
      rw [run_end hc]
      rw [run_ok hc] at h
      rcases List.mem_cons.mp h with rfl | h
      · exact ⟨[], chunks.flatten, by simp [put], by simp [put], List.nil_prefix⟩
      · obtain ⟨b, a, e, rfl⟩ := appends_mem h
        refine ⟨b.flatten, chunks.flatten, by simp [put], by simp [put], ?_⟩
        rw [e, List.flatten_append]
        exact List.prefix_append _ _

/-- the document which a conversion makes of a source -/
theorem output_ok {env : Env} {kind : Kind} {kw : Kwargs} {src : String} {fs : FS} {chunks : List Bytes} (h : output env kind kw src fs = .ok chunks) :
    ∃ job enc out, prepare env kw src kind = .ok job ∧ encoding kw = .ok enc ∧ job fs = .ok out ∧ env.write enc out = .ok chunks := by
  unfold output at h
  obtain ⟨job, h1, h⟩ := bind_ok h
  obtain ⟨enc, h2, h⟩ := bind_ok h
  obtain ⟨out, h3, h⟩ := bind_ok h
  exact ⟨job, enc, out, h1, h2, h3, h⟩

theorem readFile_ok {env : Env} {fs : FS} {path : String} {doc : Node} (h : readFile env fs path = .ok doc) : Holds env fs path doc := by
  unfold readFile at h
  split at h
  · cases h
  · rename_i b hb
    exact ⟨b, hb, h⟩

theorem written_holds {env : Env} (hf : Faithful env) {fs : FS} {path : String} {doc : Node} (h : Written env fs path doc) : Holds env fs path doc := by
  obtain ⟨enc, chunks, h1, h2⟩ := h
  exact ⟨_, h2, hf _ _ _ h1⟩

/-- what a conversion which succeeds has read and written -/
theorem written_cals_to_formex (env : Env) (kw : Kwargs) (src dst : String) (fs : FS)
    (h : (convertFile env .cals2formex kw src dst fs).result = .ok ()) :
    ∃ bc pc doc mid out, formexBuilder env kw = .ok bc ∧ calsParser env kw = .ok pc ∧ Holds env fs src doc ∧
      Convert.transformTables (Convert.cals2formex pc bc) env.depth doc = .ok mid ∧ Fmx.finalize bc mid = .ok out ∧
      Written env (atEnd fs (convertFile env .cals2formex kw src dst fs)) dst out := by
  cases hc : output env .cals2formex kw src fs with
  | error e => unfold convertFile at h; rw [hc] at h; cases h
  | ok chunks =>
    obtain ⟨job, enc, out, h1, h2, h3, h4⟩ := output_ok hc
    unfold prepare at h1
    obtain ⟨bc, hb, h1⟩ := bind_ok h1
    obtain ⟨pc, hp, h1⟩ := bind_ok h1
    cases h1
    obtain ⟨doc, hd, h3⟩ := bind_ok h3
    obtain ⟨mid, hm, h3⟩ := bind_ok h3
    exact ⟨bc, pc, doc, mid, out, hb, hp, readFile_ok hd, hm, h3, by rw [run_end hc]; exact ⟨enc, chunks, h4, by simp [put]⟩⟩

/-- **C96**, CALS to Formex: if the conversion succeeds, the source held a document before, and the destination holds its conversion after, whether
the destination is the source or another file. -/
theorem C96_cals_to_formex (env : Env) (hf : Faithful env) (kw : Kwargs) (src dst : String) (fs : FS)
    (h : (convertFile env .cals2formex kw src dst fs).result = .ok ()) :
    ∃ bc pc doc mid out, formexBuilder env kw = .ok bc ∧ calsParser env kw = .ok pc ∧ Holds env fs src doc ∧
      Convert.transformTables (Convert.cals2formex pc bc) env.depth doc = .ok mid ∧ Fmx.finalize bc mid = .ok out ∧
      Holds env (atEnd fs (convertFile env .cals2formex kw src dst fs)) dst out := by
  obtain ⟨bc, pc, doc, mid, out, h1, h2, h3, h4, h5, h6⟩ := written_cals_to_formex env kw src dst fs h
  exact ⟨bc, pc, doc, mid, out, h1, h2, h3, h4, h5, written_holds hf h6⟩

mutual
theorem firstStyles_own : ∀ (n : Node), firstStyles n = ownStyles n
  | .elem _ _ _ cs _ => firstStylesList_own cs
  | .pi .. => rfl
  | .comment .. => rfl
theorem firstStylesList_own : ∀ (ns : List Node), firstStylesList ns = (insideAll ns).find? (fun n => n.tag? = some (OoxmlSpec.name "styles"))
  | [] => rfl
  | n :: ns => by
    unfold firstStylesList insideAll
    rw [firstStyles_own n, firstStylesList_own ns, List.cons_append, List.find?_cons, List.find?_append]
    show (if n.tag? = some (OoxmlSpec.name "styles") then _ else _) = _
    by_cases h : n.tag? = some (OoxmlSpec.name "styles")
    · simp [h]
    · simp [h, ownStyles]
end

/-- what a conversion which succeeds has read and written -/
theorem written_formex_to_cals (env : Env) (kw : Kwargs) (src dst : String) (fs : FS)
    (h : (convertFile env .formex2cals kw src dst fs).result = .ok ()) :
    ∃ bc pc doc out, calsBuilder env kw = .ok bc ∧ formexParser kw = .ok pc ∧ Holds env fs src doc ∧
      Fmx2Cals.transformTables ⟨pc, bc⟩ env.depth doc = .ok out ∧
      Written env (atEnd fs (convertFile env .formex2cals kw src dst fs)) dst out := by
  cases hc : output env .formex2cals kw src fs with
  | error e => unfold convertFile at h; rw [hc] at h; cases h
  | ok chunks =>
    obtain ⟨job, enc, out, h1, h2, h3, h4⟩ := output_ok hc
    unfold prepare at h1
    obtain ⟨bc, hb, h1⟩ := bind_ok h1
    obtain ⟨pc, hp, h1⟩ := bind_ok h1
    cases h1
    obtain ⟨doc, hd, h3⟩ := bind_ok h3
    exact ⟨bc, pc, doc, out, hb, hp, readFile_ok hd, h3, by rw [run_end hc]; exact ⟨enc, chunks, h4, by simp [put]⟩⟩

/-- **C96**, Formex to CALS -/
theorem C96_formex_to_cals (env : Env) (hf : Faithful env) (kw : Kwargs) (src dst : String) (fs : FS)
    (h : (convertFile env .formex2cals kw src dst fs).result = .ok ()) :
    ∃ bc pc doc out, calsBuilder env kw = .ok bc ∧ formexParser kw = .ok pc ∧ Holds env fs src doc ∧
      Fmx2Cals.transformTables ⟨pc, bc⟩ env.depth doc = .ok out ∧
      Holds env (atEnd fs (convertFile env .formex2cals kw src dst fs)) dst out := by
  obtain ⟨bc, pc, doc, out, h1, h2, h3, h4, h5⟩ := written_formex_to_cals env kw src dst fs h
  exact ⟨bc, pc, doc, out, h1, h2, h3, h4, written_holds hf h5⟩

/-- what a conversion which succeeds has read and written -/
theorem written_word_to_cals (env : Env) (kw : Kwargs) (src dst : String) (fs : FS)
    (h : (convertFile env .ooxml2cals kw src dst fs).result = .ok ()) :
    ∃ bc path styles doc out, calsBuilder env kw = .ok bc ∧ stylesPath kw = .ok path ∧ Holds env fs src doc ∧
      (match path with
        | some p => ∃ sheet, Holds env fs p sheet ∧ styles = some sheet
        | none => styles = ownStyles doc) ∧
      Convert.transformTables (Convert.ooxml2cals ⟨env.float, env.fl, env.repr, env.recursion, styles⟩ bc) env.depth doc = .ok out ∧
      Written env (atEnd fs (convertFile env .ooxml2cals kw src dst fs)) dst out := by
  cases hc : output env .ooxml2cals kw src fs with
  | error e => unfold convertFile at h; rw [hc] at h; cases h
  | ok chunks =>
    obtain ⟨job, enc, out, h1, h2, h3, h4⟩ := output_ok hc
    unfold prepare at h1
    obtain ⟨bc, hb, h1⟩ := bind_ok h1
    obtain ⟨path, hp, h1⟩ := bind_ok h1
    cases h1
    obtain ⟨doc, hd, h3⟩ := bind_ok h3
    obtain ⟨styles, hs, h3⟩ := bind_ok h3
    refine ⟨bc, path, styles, doc, out, hb, hp, readFile_ok hd, ?_, h3, by rw [run_end hc]; exact ⟨enc, chunks, h4, by simp [put]⟩⟩
    cases path with
    | none => cases hs; exact firstStyles_own doc
    | some p =>
      unfold wordStyles at hs
      simp only at hs
      cases hr : readFile env fs p with
      | error e => rw [hr] at hs; cases hs
      | ok sheet => rw [hr] at hs; cases hs; exact ⟨sheet, readFile_ok hr, rfl⟩

/-- **C96**, Word to CALS: the stylesheet is read before the destination is written -/
theorem C96_word_to_cals (env : Env) (hf : Faithful env) (kw : Kwargs) (src dst : String) (fs : FS)
    (h : (convertFile env .ooxml2cals kw src dst fs).result = .ok ()) :
    ∃ bc path styles doc out, calsBuilder env kw = .ok bc ∧ stylesPath kw = .ok path ∧ Holds env fs src doc ∧
      (match path with
        | some p => ∃ sheet, Holds env fs p sheet ∧ styles = some sheet
        | none => styles = ownStyles doc) ∧
      Convert.transformTables (Convert.ooxml2cals ⟨env.float, env.fl, env.repr, env.recursion, styles⟩ bc) env.depth doc = .ok out ∧
      Holds env (atEnd fs (convertFile env .ooxml2cals kw src dst fs)) dst out := by
  obtain ⟨bc, path, styles, doc, out, h1, h2, h3, h4, h5, h6⟩ := written_word_to_cals env kw src dst fs h
  exact ⟨bc, path, styles, doc, out, h1, h2, h3, h4, h5, written_holds hf h6⟩

/-- what a conversion which succeeds has read and written -/
theorem written_word_to_formex (env : Env) (kw : Kwargs) (src dst : String) (fs : FS)
    (h : (convertFile env .ooxml2formex kw src dst fs).result = .ok ()) :
    ∃ bc path styles doc mid out, formexBuilder env kw = .ok bc ∧ stylesPath kw = .ok path ∧ Holds env fs src doc ∧
      (match path with
        | some p => ∃ sheet, Holds env fs p sheet ∧ styles = some sheet
        | none => styles = ownStyles doc) ∧
      Convert.transformTables (Convert.ooxml2formex ⟨env.float, env.fl, env.repr, env.recursion, styles⟩ bc) env.depth doc = .ok mid ∧
      Fmx.finalize bc mid = .ok out ∧ Written env (atEnd fs (convertFile env .ooxml2formex kw src dst fs)) dst out := by
  cases hc : output env .ooxml2formex kw src fs with
  | error e => unfold convertFile at h; rw [hc] at h; cases h
  | ok chunks =>
    obtain ⟨job, enc, out, h1, h2, h3, h4⟩ := output_ok hc
    unfold prepare at h1
    obtain ⟨bc, hb, h1⟩ := bind_ok h1
    obtain ⟨path, hp, h1⟩ := bind_ok h1
    cases h1
    obtain ⟨doc, hd, h3⟩ := bind_ok h3
    obtain ⟨styles, hs, h3⟩ := bind_ok h3
    obtain ⟨mid, hm, h3⟩ := bind_ok h3
    refine ⟨bc, path, styles, doc, mid, out, hb, hp, readFile_ok hd, ?_, hm, h3, by rw [run_end hc]; exact ⟨enc, chunks, h4, by simp [put]⟩⟩
    cases path with
    | none => cases hs; exact firstStyles_own doc
    | some p =>
      unfold wordStyles at hs
      simp only at hs
      cases hr : readFile env fs p with
      | error e => rw [hr] at hs; cases hs
      | ok sheet => rw [hr] at hs; cases hs; exact ⟨sheet, readFile_ok hr, rfl⟩

/-- **C96**, Word to Formex -/
theorem C96_word_to_formex (env : Env) (hf : Faithful env) (kw : Kwargs) (src dst : String) (fs : FS)
    (h : (convertFile env .ooxml2formex kw src dst fs).result = .ok ()) :
    ∃ bc path styles doc mid out, formexBuilder env kw = .ok bc ∧ stylesPath kw = .ok path ∧ Holds env fs src doc ∧
      (match path with
        | some p => ∃ sheet, Holds env fs p sheet ∧ styles = some sheet
        | none => styles = ownStyles doc) ∧
      Convert.transformTables (Convert.ooxml2formex ⟨env.float, env.fl, env.repr, env.recursion, styles⟩ bc) env.depth doc = .ok mid ∧
      Fmx.finalize bc mid = .ok out ∧ Holds env (atEnd fs (convertFile env .ooxml2formex kw src dst fs)) dst out := by
  obtain ⟨bc, path, styles, doc, mid, out, h1, h2, h3, h4, h5, h6, h7⟩ := written_word_to_formex env kw src dst fs h
  exact ⟨bc, path, styles, doc, mid, out, h1, h2, h3, h4, h5, h6, written_holds hf h7⟩

/-- a conversion looks at its source and at its stylesheet only -/
theorem output_congr {env : Env} {kind : Kind} {kw : Kwargs} {src : String} {fs fs' : FS} (h : ∀ p ∈ src :: sheetOf kind kw, fs p = fs' p) :
    output env kind kw src fs = output env kind kw src fs' := by
  have hsrc : readFile env fs src = readFile env fs' src := by unfold readFile; rw [h src (by simp)]
  have hword : ∀ doc path, (kind = .ooxml2cals ∨ kind = .ooxml2formex) → stylesPath kw = .ok path → wordStyles env fs path doc = wordStyles env fs' path doc := by
    intro doc path hk hp
    cases path with
    | none => rfl
    | some p =>
      have hm : p ∈ sheetOf kind kw := by
        unfold stylesPath opt at hp
        unfold sheetOf
        cases hg : Dict.get? kw "styles_path" with
        | none => rw [hg] at hp; cases hp
        | some v =>
          rw [hg] at hp
          cases v with
          | none => cases hp
          | bool b => cases hp
          | list l => cases hp
          | str s =>
            simp only [Option.getD_some, OptVal.textOrNone] at hp
            split at hp
            · cases hp
            · cases hp
              rcases hk with rfl | rfl <;> simp
      unfold wordStyles readFile
      simp only
      rw [h p (List.mem_cons_of_mem _ hm)]
  unfold output
  cases kind with
  | cals2formex =>
    simp only [prepare]
    cases formexBuilder env kw <;> cases calsParser env kw <;> simp [bind, Except.bind, pure, Except.pure, hsrc]
  | formex2cals =>
    simp only [prepare]
    cases calsBuilder env kw <;> cases formexParser kw <;> simp [bind, Except.bind, pure, Except.pure, hsrc]
  | ooxml2cals =>
    simp only [prepare]
    cases calsBuilder env kw with
    | error e => rfl
    | ok bc =>
      cases hp : stylesPath kw with
      | error e => rfl
      | ok path =>
        simp only [bind, Except.bind, pure, Except.pure, hsrc]
        cases readFile env fs' src with
        | error e => rfl
        | ok doc => simp only [hword doc path (.inl rfl) hp]
  | ooxml2formex =>
    simp only [prepare]
    cases formexBuilder env kw with
    | error e => rfl
    | ok bc =>
      cases hp : stylesPath kw with
      | error e => rfl
      | ok path =>
        simp only [bind, Except.bind, pure, Except.pure, hsrc]
        cases readFile env fs' src with
        | error e => rfl
        | ok doc => simp only [hword doc path (.inr rfl) hp]

/-- **C96**: the result of a conversion depends on its source, on its stylesheet and on its options only: neither on the other files, nor on what the destination was, nor
on the conversions which were made before. -/
theorem C96_inputs (env : Env) (kind : Kind) (kw : Kwargs) (src dst : String) (fs fs' : FS) (h : ∀ p ∈ src :: sheetOf kind kw, fs p = fs' p) :
    (convertFile env kind kw src dst fs).result = (convertFile env kind kw src dst fs').result ∧
    ((convertFile env kind kw src dst fs).result = .ok () →
      atEnd fs (convertFile env kind kw src dst fs) dst = atEnd fs' (convertFile env kind kw src dst fs') dst) := by
  have e := output_congr (env := env) h
  cases hc : output env kind kw src fs with
  | error x =>
    have hc' := hc
    rw [e] at hc'
    have r1 : convertFile env kind kw src dst fs = ⟨.error x, []⟩ := by unfold convertFile; rw [hc]
    have r2 : convertFile env kind kw src dst fs' = ⟨.error x, []⟩ := by unfold convertFile; rw [hc']
    rw [r1, r2]
    exact ⟨rfl, fun h => by cases h⟩
  | ok chunks =>
    have hc' := hc
    rw [e] at hc'
    rw [run_end hc, run_end hc', run_ok hc, run_ok hc']
    exact ⟨rfl, fun _ => by simp [put]⟩

/-- **C96**: converting again changes nothing, if the destination is neither the source nor the stylesheet. -/
theorem C96_again (env : Env) (kind : Kind) (kw : Kwargs) (src dst : String) (fs : FS) (hd : dst ∉ src :: sheetOf kind kw)
    (h : (convertFile env kind kw src dst fs).result = .ok ()) :
    let fs₁ := atEnd fs (convertFile env kind kw src dst fs)
    (convertFile env kind kw src dst fs₁).result = .ok () ∧ atEnd fs₁ (convertFile env kind kw src dst fs₁) = fs₁ := by
  cases hc : output env kind kw src fs with
  | error e => unfold convertFile at h; rw [hc] at h; cases h
  | ok chunks =>
    simp only [run_end hc]
    have e : output env kind kw src (put fs dst chunks.flatten) = .ok chunks := by
      rw [← hc]
      refine output_congr ?_
      intro p hp
      have : p ≠ dst := fun e => hd (e ▸ hp)
      simp [put, this]
    rw [run_end e, run_ok e]
    refine ⟨rfl, ?_⟩
    funext p
    simp only [put]
    split <;> rfl

/-- what **C96** does not say: a conversion whose destination is its source is not atomic; there is an instant when the document is lost, whatever it is -/
theorem C96_in_place_not_atomic (env : Env) (kind : Kind) (kw : Kwargs) (src : String) (fs : FS) (h : (convertFile env kind kw src src fs).result = .ok ()) :
    ∃ s, Reached fs (convertFile env kind kw src src fs) s ∧ s src = some [] := by
  cases hc : output env kind kw src fs with
  | error e => unfold convertFile at h; rw [hc] at h; cases h
  | ok chunks =>
    rw [run_ok hc]
    exact ⟨put fs src [], .inr (by simp), by simp [put]⟩

/-! ### C97: the options -/

theorem opt_set_ne {kw : Kwargs} {k name : String} {v d : OptVal} (h : k ≠ name) : opt (Dict.set kw k v) name d = opt kw name d := by
  unfold opt
  rw [Dict.get?_set, if_neg h]

theorem opt_set_default {kw : Kwargs} {name : String} {d : OptVal} (h : Dict.get? kw name = none) : opt (Dict.set kw name d) name d = opt kw name d := by
  unfold opt
  rw [Dict.get?_set, if_pos rfl, h]
  rfl

/-- the conversions look at the options through these functions only -/
theorem output_options {env : Env} {kind : Kind} {kw kw' : Kwargs} {src : String} {fs : FS} (he : encoding kw = encoding kw')
    (h : match kind with
      | .cals2formex => formexBuilder env kw = formexBuilder env kw' ∧ calsParser env kw = calsParser env kw'
      | .formex2cals => calsBuilder env kw = calsBuilder env kw' ∧ formexParser kw = formexParser kw'
      | .ooxml2cals => calsBuilder env kw = calsBuilder env kw' ∧ stylesPath kw = stylesPath kw'
      | .ooxml2formex => formexBuilder env kw = formexBuilder env kw' ∧ stylesPath kw = stylesPath kw') :
    output env kind kw src fs = output env kind kw' src fs := by
  unfold output
  cases kind <;> simp only at h <;> simp only [prepare, h.1, h.2, he]

theorem run_options {env : Env} {kind : Kind} {kw kw' : Kwargs} {src dst : String} {fs : FS} (h : output env kind kw src fs = output env kind kw' src fs) :
    convertFile env kind kw src dst fs = convertFile env kind kw' src dst fs := by
  unfold convertFile; rw [h]

theorem calsBuilder_sorting {env : Env} {kw : Kwargs} (hn : Dict.get? kw "tgroup_sorting" = none) :
    calsBuilder env (Dict.set kw "tgroup_sorting" (.list ["header", "footer", "body"])) = calsBuilder env kw := by
  have h1 : opt (Dict.set kw "tgroup_sorting" (.list ["header", "footer", "body"])) "tgroup_sorting" .none = .list ["header", "footer", "body"] := by
    unfold opt; rw [Dict.get?_set, if_pos rfl]; rfl
  have h2 : opt kw "tgroup_sorting" .none = .none := by unfold opt; rw [hn]; rfl
  have ne : ∀ (k : String) (d : OptVal), "tgroup_sorting" ≠ k →
      opt (Dict.set kw "tgroup_sorting" (.list ["header", "footer", "body"])) k d = opt kw k d := fun k d h => opt_set_ne h
  unfold calsBuilder
  rw [h1, h2]
  simp [ne]
  rfl

/-- **C97**: giving an option its documented default is the same as not giving it. -/
theorem C97_defaults (env : Env) (kind : Kind) (kw : Kwargs) (src dst : String) (fs : FS) (name : String) (v : OptVal) (hv : (name, v) ∈ documented kind)
    (hn : Dict.get? kw name = none) : convertFile env kind (Dict.set kw name v) src dst fs = convertFile env kind kw src dst fs := by
  have ne : ∀ (k : String) (d : OptVal), name ≠ k → opt (Dict.set kw name v) k d = opt kw k d := fun k d h => opt_set_ne h
  have same : opt (Dict.set kw name v) name v = opt kw name v := opt_set_default hn
  apply run_options
  cases kind with
  | cals2formex =>
    simp only [documented, List.mem_cons, List.not_mem_nil, or_false, Prod.mk.injEq] at hv
    rcases hv with ⟨rfl, rfl⟩ | ⟨rfl, rfl⟩ | ⟨rfl, rfl⟩ | ⟨rfl, rfl⟩ | ⟨rfl, rfl⟩
    all_goals apply output_options (by simp [encoding, ne, same])
    all_goals
      simp only [formexBuilder, calsParser, calsNs] at same ⊢
      simp [ne, same]
  | formex2cals =>
    simp only [documented, List.mem_cons, List.not_mem_nil, or_false, Prod.mk.injEq] at hv
    rcases hv with ⟨rfl, rfl⟩ | ⟨rfl, rfl⟩ | ⟨rfl, rfl⟩ | ⟨rfl, rfl⟩ | ⟨rfl, rfl⟩ | ⟨rfl, rfl⟩ | ⟨rfl, rfl⟩ | ⟨rfl, rfl⟩
    all_goals apply output_options (by simp [encoding, ne, same])
    case inr.inr.inr.inr.inr.inr.inr => exact ⟨calsBuilder_sorting hn, by simp [formexParser, ne]⟩
    all_goals simp [calsBuilder, formexParser, ne, same]
  | ooxml2cals =>
    simp only [documented, List.mem_cons, List.not_mem_nil, or_false, Prod.mk.injEq] at hv
    rcases hv with ⟨rfl, rfl⟩ | ⟨rfl, rfl⟩ | ⟨rfl, rfl⟩ | ⟨rfl, rfl⟩ | ⟨rfl, rfl⟩ | ⟨rfl, rfl⟩ | ⟨rfl, rfl⟩
    all_goals apply output_options (by simp [encoding, ne, same])
    case inr.inr.inr.inr.inr.inr => exact ⟨calsBuilder_sorting hn, by simp [stylesPath, ne]⟩
    all_goals simp [calsBuilder, stylesPath, ne, same]
  | ooxml2formex =>
    simp only [documented, List.mem_cons, List.not_mem_nil, or_false, Prod.mk.injEq] at hv
    rcases hv with ⟨rfl, rfl⟩ | ⟨rfl, rfl⟩ | ⟨rfl, rfl⟩ | ⟨rfl, rfl⟩ | ⟨rfl, rfl⟩ | ⟨rfl, rfl⟩ | ⟨rfl, rfl⟩
    all_goals apply output_options (by simp [encoding, ne, same])
    all_goals
      simp only [formexBuilder, stylesPath, calsNs] at same ⊢
      simp [ne, same]

/-- **C97**: an option which a conversion does not know is ignored. -/
theorem C97_unknown (env : Env) (kind : Kind) (kw : Kwargs) (src dst : String) (fs : FS) (name : String) (v : OptVal) (hn : name ∉ optionNames kind) :
    convertFile env kind (Dict.set kw name v) src dst fs = convertFile env kind kw src dst fs := by
  have ne : ∀ k ∈ optionNames kind, ∀ d, opt (Dict.set kw name v) k d = opt kw k d := fun k hk d => opt_set_ne (fun e => hn (e ▸ hk))
  apply run_options
  cases kind <;> simp only [optionNames, documented, List.map_cons, List.map_nil, List.mem_cons, List.not_mem_nil, or_false, forall_eq_or_imp, forall_eq] at ne <;>
    apply output_options <;> simp [encoding, formexBuilder, calsBuilder, formexParser, calsParser, stylesPath, ne]

/-- **C97**: an empty namespace, or an empty prefix, is the same as none. -/
theorem C97_empty_namespace (env : Env) (kind : Kind) (kw : Kwargs) (src dst : String) (fs : FS) (name : String) (hn : name ∈ namespaceNames) :
    convertFile env kind (Dict.set kw name (.str "")) src dst fs = convertFile env kind (Dict.set kw name .none) src dst fs := by
  have ne : ∀ (k : String), name ≠ k → ∀ d, opt (Dict.set kw name (.str "")) k d = opt (Dict.set kw name .none) k d := fun k hk d => by
    rw [opt_set_ne hk, opt_set_ne hk]
  have same : ∀ d, (opt (Dict.set kw name (.str "")) name d).textOrNone = (opt (Dict.set kw name .none) name d).textOrNone := by
    intro d
    unfold opt
    rw [Dict.get?_set, Dict.get?_set, if_pos rfl, if_pos rfl]
    rfl
  apply run_options
  simp only [namespaceNames, List.mem_cons, List.not_mem_nil, or_false] at hn
  rcases hn with rfl | rfl | rfl <;> cases kind <;>
    apply output_options <;> simp [encoding, formexBuilder, calsBuilder, formexParser, calsParser, stylesPath, ne, same]

/-- **C97**: a prefix for the CALS elements needs a namespace: without one, the conversion is refused, and no file is looked at. -/
theorem C97_prefix_refused (env : Env) (kind : Kind) (hk : kind = .formex2cals ∨ kind = .ooxml2cals) (kw : Kwargs) (src dst : String) (p : String) (hp : p ≠ "")
    (h1 : Dict.get? kw "cals_prefix" = some (.str p))
    (h2 : Dict.get? kw "cals_ns" = none ∨ Dict.get? kw "cals_ns" = some .none ∨ Dict.get? kw "cals_ns" = some (.str "")) :
    ∃ e, ∀ fs, convertFile env kind kw src dst fs = ⟨.error e, []⟩ := by
  have hns : (opt kw "cals_ns" .none).textOrNone = .ok none := by
    unfold opt
    rcases h2 with h | h | h <;> rw [h] <;> rfl
  have hpr : (opt kw "cals_prefix" .none).textOrNone = .ok (some p) := by
    unfold opt; rw [h1]; simp [OptVal.textOrNone, hp]
  have hb : ∃ e, calsBuilder env kw = .error e := by
    unfold calsBuilder
    rw [hns, hpr]
    simp only [bind, Except.bind]
    cases (opt kw "width_unit" (.str "mm")).text with
    | error e => exact ⟨e, rfl⟩
    | ok u =>
      cases (opt kw "tgroup_sorting" .none).names with
      | error e => exact ⟨e, rfl⟩
      | ok s => exact ⟨.valueError, by simp [registerNamespace]⟩
  obtain ⟨e, he⟩ := hb
  refine ⟨e, fun fs => ?_⟩
  have : output env kind kw src fs = .error e := by
    unfold output
    rcases hk with rfl | rfl <;> simp only [prepare, he, bind, Except.bind]
  unfold convertFile
  rw [this]

/-- **C97**: the sorting of the rows must tell where the header, the footer and the body are: otherwise, the conversion is refused, and no file is looked at. -/
theorem C97_sorting_refused (env : Env) (kind : Kind) (hk : kind = .formex2cals ∨ kind = .ooxml2cals) (kw : Kwargs) (src dst : String) (l : List String) (hl : l ≠ [])
    (h1 : Dict.get? kw "tgroup_sorting" = some (.list l)) (n : String) (hn : n ∈ ["header", "footer", "body"]) (hm : n ∉ l) :
    ∃ e, ∀ fs, convertFile env kind kw src dst fs = ⟨.error e, []⟩ := by
  have hs : (opt kw "tgroup_sorting" .none).names = .ok (some l) := by unfold opt; rw [h1]; rfl
  have hb : ∃ e, calsBuilder env kw = .error e := by
    unfold calsBuilder
    rw [hs]
    simp only [bind, Except.bind]
    cases (opt kw "cals_ns" .none).textOrNone with
    | error e => exact ⟨e, rfl⟩
    | ok ns =>
      cases (opt kw "cals_prefix" .none).textOrNone with
      | error e => exact ⟨e, rfl⟩
      | ok p =>
        cases (opt kw "width_unit" (.str "mm")).text with
        | error e => exact ⟨e, rfl⟩
        | ok u =>
          simp only
          cases registerNamespace p ns with
          | error e => exact ⟨e, rfl⟩
          | ok ns =>
            refine ⟨.valueError, ?_⟩
            simp only
            unfold Cals.Config.new
            rw [if_neg]
            intro h
            have h := List.all_eq_true.mp h n hn
            have e : Cals.sortingOption (some l) = l := by
              cases l with
              | nil => exact absurd rfl hl
              | cons => rfl
            rw [e] at h
            rcases _root_.Benker.sortingDict_get l n with ⟨hg, _⟩ | ⟨i, _, hi, _⟩
            · simp [Dict.has, hg] at h
            · exact hm (List.mem_of_getElem? hi)
  obtain ⟨e, he⟩ := hb
  refine ⟨e, fun fs => ?_⟩
  have : output env kind kw src fs = .error e := by
    unfold output
    rcases hk with rfl | rfl <;> simp only [prepare, he, bind, Except.bind]
  unfold convertFile
  rw [this]

/-- **C97**: `cals_ns` is the namespace of the CALS tables which are read and that of the CALS attributes which are written; without this option, the tables which are
read have no namespace, and the attributes which are written have that of the CALS schema. -/
theorem C97_cals_namespace (env : Env) (kw : Kwargs) (pc : CalsP.Config) (bc : Fmx.Config) (hp : calsParser env kw = .ok pc) (hb : formexBuilder env kw = .ok bc) :
    (Dict.get? kw "cals_ns" = none → pc.ns = none ∧ bc.calsNs = some "https://lib.benker.com/schemas/cals.xsd") ∧
    ∀ v, Dict.get? kw "cals_ns" = some v → pc.ns = bc.calsNs := by
  unfold calsParser at hp
  unfold formexBuilder at hb
  obtain ⟨ns, h1, hp⟩ := bind_ok hp
  obtain ⟨u, _, hp⟩ := bind_ok hp
  cases hp
  obtain ⟨ns', h2, hb⟩ := bind_ok hb
  obtain ⟨_, _, hb⟩ := bind_ok hb
  obtain ⟨u', _, hb⟩ := bind_ok hb
  cases hb
  unfold opt at h1 h2
  constructor
  · intro h
    rw [h] at h1 h2
    cases h1; cases h2
    exact ⟨rfl, by simp [calsNs]⟩
  · intro v h
    rw [h] at h1 h2
    simp only [Option.getD_some] at h1 h2
    rw [h1] at h2
    cases h2; rfl

/-- **C97**: without the option `use_cals`, the options `cals_ns`, `cals_prefix` and `width_unit` of the Formex builder have no effect on a table. -/
theorem C97_requires_cals (bc bc' : Fmx.Config) (h : bc.useCals = false) (h' : bc'.useCals = false) (ht : bc.detectTitles = bc'.detectTitles) (noSeq : Nat) :
    Fmx.generate bc noSeq = Fmx.generate bc' noSeq := by
  have e1 : Fmx.splitTitle bc = Fmx.splitTitle bc' := by funext a b c; simp only [Fmx.splitTitle, ht]
  have e2 : Fmx.corpusAttrs bc = Fmx.corpusAttrs bc' := by funext a; simp [Fmx.corpusAttrs, h, h']
  have e3 : Fmx.tableSep bc = Fmx.tableSep bc' := by funext a b; simp [Fmx.tableSep, h, h']
  have e4 : Fmx.rowAttrs bc = Fmx.rowAttrs bc' := by funext a b; simp [Fmx.rowAttrs, h, h']
  have e5 : Fmx.cellAttrs bc = Fmx.cellAttrs bc' := by funext a b c d e; simp [Fmx.cellAttrs, h, h']
  have e6 : Fmx.buildCell bc = Fmx.buildCell bc' := by funext a b c d e; simp [Fmx.buildCell, e5]
  have e7 : Fmx.buildRow bc = Fmx.buildRow bc' := by funext a b c d; simp only [Fmx.buildRow, e4, e6]
  have e8 : Fmx.buildCorpus bc = Fmx.buildCorpus bc' := by funext a b c d e; simp [Fmx.buildCorpus, e1, e2, e3, e7, h, h']
  have e9 : Fmx.buildTree bc = Fmx.buildTree bc' := by funext a b c d e f; simp [Fmx.buildTree, e8]
  unfold Fmx.generate
  rw [e9]

/-! ### not vacuous -/

open Classical in
/-- an XML library which knows two documents: one is in the byte 1, and the other is written in two chunks, 2 then 3 -/
noncomputable def envDemo (doc out : Node) : Env where
  read b := if b = [1] then .ok doc else if b = [2, 3] then .ok out else .error .valueError
  write _ n := if n = out then .ok [[2], [3]] else .error .valueError
  fl := id
  float := wConfig.float
  repr := wConfig.repr
  recursion := wConfig.limit
  depth := 20

theorem envDemo_faithful (doc out : Node) : Faithful (envDemo doc out) := by
  intro enc n chunks h
  unfold envDemo at h ⊢
  simp only at h ⊢
  split at h
  · cases h; simp_all
  · cases h

/-- the files of the examples: the document at `a.xml`, something else at `b.xml` -/
def fsDemo : FS := fun p => if p = "a.xml" then some [1] else if p = "b.xml" then some [9, 9] else none

/-- the document `convertDemo` is converted from CALS to Formex, with CALS attributes: every theorem of C96 applies; after the first chunk, the destination holds the byte 2 -/
example : ∃ out, let env := envDemo Convert.convertDemo out
    let run := convertFile env .cals2formex [("use_cals", .bool true)] "a.xml" "b.xml" fsDemo
    run.result = .ok () ∧ atEnd fsDemo run "b.xml" = some [2, 3] ∧ atEnd fsDemo run "a.xml" = some [1] ∧
      ∃ s, Reached fsDemo run s ∧ s "b.xml" = some [2] := by
  let pc : CalsP.Config := ⟨none, "mm".toList, id⟩
  let bc : Fmx.Config := ⟨false, true, some "https://lib.benker.com/schemas/cals.xsd", "mm".toList, id⟩
  obtain ⟨out, ho⟩ := ok_of (show ((Convert.transformTables (Convert.cals2formex pc bc) 20 Convert.convertDemo).bind (Fmx.finalize bc)).isOk = true by decide +kernel)
  refine ⟨out, ?_⟩
  have hc : output (envDemo Convert.convertDemo out) .cals2formex [("use_cals", .bool true)] "a.xml" fsDemo = .ok [[2], [3]] := by
    unfold output
    have hr : readFile (envDemo Convert.convertDemo out) fsDemo "a.xml" = .ok Convert.convertDemo := by simp [readFile, fsDemo, envDemo]
    have hp : prepare (envDemo Convert.convertDemo out) [("use_cals", .bool true)] "a.xml" .cals2formex =
        .ok (fun fs => do
          let doc ← readFile (envDemo Convert.convertDemo out) fs "a.xml"
          let doc ← Convert.transformTables (Convert.cals2formex pc bc) 20 doc
          Fmx.finalize bc doc) := rfl
    have he : encoding [("use_cals", .bool true)] = .ok "utf-8" := rfl
    rw [hp, he]
    simp only [bind, Except.bind, hr]
    simp only [Except.bind] at ho
    rw [ho]
    simp [envDemo]
  simp only
  rw [run_end hc, run_ok hc]
  exact ⟨rfl, rfl, by simp [put, fsDemo], put fsDemo "b.xml" [2], .inr (by simp [appends]), by simp [put]⟩

/-- a conversion which is refused: there is no such file -/
example (out : Node) : (convertFile (envDemo Convert.convertDemo out) .cals2formex [] "c.xml" "b.xml" fsDemo).result = .error .osError := rfl

/-- options which are refused, and options which are not -/
example (env : Env) : (∃ e, calsBuilder env [("cals_prefix", .str "c")] = .error e) ∧ (∃ c, calsBuilder env [("cals_prefix", .str "c"), ("cals_ns", .str "urn:cals")] = .ok c) ∧
    (∃ e, calsBuilder env [("tgroup_sorting", .list ["header", "body"])] = .error e) ∧ (∃ c, calsBuilder env [("tgroup_sorting", .list ["body", "header", "footer"])] = .ok c) :=
  ⟨⟨_, rfl⟩, ⟨_, rfl⟩, ⟨_, rfl⟩, ⟨_, rfl⟩⟩

/-- the two defaults of `cals_ns` -/
example (env : Env) : (∃ pc bc, calsParser env [] = .ok pc ∧ formexBuilder env [] = .ok bc ∧ pc.ns ≠ bc.calsNs) ∧
    ∃ pc bc, calsParser env [("cals_ns", .str "urn:cals")] = .ok pc ∧ formexBuilder env [("cals_ns", .str "urn:cals")] = .ok bc ∧ pc.ns = some "urn:cals" ∧ bc.calsNs = some "urn:cals" :=
  ⟨⟨_, _, rfl, rfl, by simp [calsNs]⟩, ⟨_, _, rfl, rfl, rfl, rfl⟩⟩

/-- the attributes of a converted table, of which the width is 10 mm -/
def attrsDemo (useCals : Bool) (ns : String) (unit : String) : Option (List (List (Option String × String × String))) :=
  ((Convert.cals2formex ⟨none, "mm".toList, id⟩ ⟨false, useCals, some ns, unit.toList, id⟩).convert []
    (.elem ⟨none, "table"⟩ [(⟨none, "width"⟩, "10mm")] none [.elem ⟨none, "tgroup"⟩ [] none
      [.elem ⟨none, "tbody"⟩ [] none [.elem ⟨none, "row"⟩ [] none [.elem ⟨none, "entry"⟩ [] (some "a") [] none] none] none] none] none)).toOption.map
    (fun n => (preorder n).map (fun e => e.attrs.map (fun a => (a.1.ns, a.1.name, a.2))))

/-- `use_cals` is necessary for the other options: with it, the namespace and the unit matter; without it, they do not -/
example : attrsDemo true "x" "mm" ≠ attrsDemo true "y" "mm" ∧ attrsDemo true "x" "mm" ≠ attrsDemo true "x" "cm" ∧
    (attrsDemo false "x" "mm").isSome = true ∧ attrsDemo false "x" "mm" = attrsDemo false "y" "cm" := by
  refine ⟨?_, ?_, ?_, ?_⟩ <;> decide +kernel

end Benker
