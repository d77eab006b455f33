import Verif.Lemmas.Origin
import Verif.Props.Again
import Verif.Props.TwiceFiles

/-! C102: a conversion invents nothing. -/

namespace Benker.Origin
open PyM Fmx Benker.Convert

theorem set_set : ∀ (a : Dict QName String) (k : QName) (v w : String), Dict.set (Dict.set a k v) k w = Dict.set a k w
  | [], k, v, w => by simp [Dict.set]
  | (k', v') :: a, k, v, w => by
    by_cases h : k' = k
    · simp [Dict.set, h]
    · simp [Dict.set, h, set_set a k v w]

/-- what may be found in a converted document -/
def From (made : QName → Dict QName String → Prop) (marks : Prop) (doc : Node) (k : Tok) : Prop := k ∈ toks doc ∨ Created made marks k

theorem nothingElse_iff {made : QName → Dict QName String → Prop} {marks : Prop} {doc out : Node} :
    Only (From made marks doc) [out] ↔ NothingElse made marks doc out := by
  unfold Only NothingElse From
  simp [toksList]

theorem only_self {made : QName → Dict QName String → Prop} {marks : Prop} {doc : Node} : Only (From made marks doc) [doc] :=
  nothingElse_iff.mpr (fun _ h => .inl h)

theorem from_made {made : QName → Dict QName String → Prop} {marks : Prop} {doc : Node} {q : QName} {a : Dict QName String} (h : made q a) :
    From made marks doc (.opening q a) ∧ From made marks doc (.closing q) := ⟨.inr h, .inr ⟨a, h⟩⟩

theorem from_marks {made : QName → Dict QName String → Prop} {marks : Prop} {doc : Node} : Marks (From made marks doc) marks :=
  fun h _ => ⟨.inr ⟨h, by simp⟩, .inr ⟨h, by simp⟩⟩

theorem thenGenerate_ok {parsed : Except PyErr (Option (Table Content))} {g : PyM (Table Content) Node} {e : Node} (h : thenGenerate parsed g = .ok e) :
    ∃ t, parsed = .ok (some t) ∧ eval g t = .ok e := by
  unfold thenGenerate at h
  split at h
  · cases h
  · cases h
  · exact ⟨_, rfl, h⟩

theorem eval_run {σ α : Type} {m : PyM σ α} {s : σ} {a : α} (h : eval m s = .ok a) : m s = (.ok a, (m s).2) := by
  unfold eval at h
  rw [← h]

theorem transform_only {P : Tok → Prop} {c : Conv} (hc : ∀ following n e, Only P [n] → c.convert following n = .ok e → Only P [e]) {limit : Nat} {doc out : Node}
    (hd : Only P [doc]) (h : transformTables c limit doc = .ok out) : Only P [out] := by
  by_cases hs : c.selects doc = true
  · unfold transformTables at h
    rw [if_pos hs] at h
    obtain ⟨_, _, h⟩ := bind_ok h
    cases h
  · exact replaced_only hc hd ((C58_replacement c doc out (by simpa using hs)).mp ⟨limit, h⟩)

section
variable {titles cals : Bool} {ns : Option String} {doc : Node} {marks : Prop}

theorem formex_names : ∀ n ∈ formexNames, ∀ a, From (InFormex titles cals ns doc) marks doc (.opening (f n) a) ∧ From (InFormex titles cals ns doc) marks doc (.closing (f n)) :=
  fun _ hn _ => from_made (.inl ⟨rfl, hn⟩)

theorem formex_typed (q : QName) (a : Dict QName String) (s ty : String) (hs : Dict.get? a ⟨ns, "rowstyle"⟩ = some s)
    (h : From (InFormex titles cals ns doc) marks doc (.opening q a)) : From (InFormex titles cals ns doc) marks doc (.opening q (Dict.set a (f "TYPE") ty)) := by
  rcases h with h | h | h | ⟨h1, h2, h3⟩ | ⟨a0, s0, ty0, h1, h2, h3⟩
  · exact .inr (.inr (.inr (.inr ⟨a, s, ty, h, hs, rfl⟩)))
  · exact .inr (.inl h)
  · exact .inr (.inr (.inl h))
  · subst h3; cases hs
  · exact .inr (.inr (.inr (.inr ⟨a0, s0, ty, h1, h2, by rw [h3]; exact set_set ..⟩)))

theorem toFormex_only {b : Fmx.Config} {t : Table Content} {k : Nat} {tree : Node} (hi : t.Inv)
    (h : t.Meets (only (From (InFormex b.detectTitles b.useCals b.calsNs doc) marks doc) marks)) (ht : eval (Fmx.generate b k) t = .ok tree) :
    Only (From (InFormex b.detectTitles b.useCals b.calsNs doc) marks doc) [tree] :=
  fmx_tree (fun n hn => formex_names n (List.mem_of_mem_erase hn)) (fun hu _ => from_made (.inr (.inl ⟨hu, rfl⟩))) (fun hd => from_made (.inr (.inr (.inl ⟨hd, rfl, rfl⟩)))) from_marks hi h
    (fun _ _ _ _ _ => formex_names _ (by decide) _) ht

theorem toCals_only {b : Cals.Config} {t : Table Content} {tree : Node} (hi : t.Inv)
    (h : t.Meets (only (From (fun q _ => InCals b.ns q) marks doc) marks)) (ht : eval (Cals.generate b) t = .ok tree) :
    Only (From (fun q _ => InCals b.ns q) marks doc) [tree] :=
  cals_tree (ns := b.ns) (fun _ hq a => from_made (a := a) hq) from_marks rfl hi h ht

theorem word_marks_formex : (∃ a, From (InFormex titles cals ns doc) (Inserted doc) doc (.opening (Ooxml.w "ins") a)) → Inserted doc := by
  rintro ⟨a, h | ⟨h1, _⟩ | ⟨_, h⟩ | ⟨_, h, _⟩ | ⟨a0, _, _, h, _, _⟩⟩
  · exact ⟨a, h⟩
  · cases h1
  · exact absurd (congrArg QName.name h) (by show ¬ "ins" = "colspec"; decide)
  · exact absurd (congrArg QName.name h) (by decide)
  · exact ⟨a0, h⟩

theorem word_marks_cals : (∃ a, From (fun q _ => InCals ns q) (Inserted doc) doc (.opening (Ooxml.w "ins") a)) → Inserted doc := by
  rintro ⟨a, h | ⟨_, h⟩⟩
  · exact ⟨a, h⟩
  · exact absurd h (by decide)
end

/-- **C102**, CALS to Formex: every tag, character, processing instruction and comment of the converted document is in the document which is converted, or is
a tag of an element of a Formex table. -/
theorem C102_cals_to_formex (pc : CalsP.Config) (bc : Fmx.Config) (limit : Nat) (doc mid out : Node)
    (htables : transformTables (cals2formex pc bc) limit doc = .ok mid) (hfin : finalize bc mid = .ok out) :
    NothingElse (InFormex bc.detectTitles bc.useCals bc.calsNs doc) False doc out := by
  refine nothingElse_iff.mp (finalize_only (fun n hn => formex_names n (List.mem_of_mem_erase hn)) (fun _ _ _ _ => (formex_names _ (by decide) _).1)
    (fun q a s ty hs _ => formex_typed q a s ty hs) (transform_only ?_ only_self htables) hfin)
  intro following n e hn he
  obtain ⟨t, h1, h2⟩ := thenGenerate_ok he
  have hp := eval_run h1
  exact toFormex_only (CalsP.parsed_reachable hp).inv (OfCals.parsed hn hp) h2

/-- **C102**, Word to Formex: the same; revision marks are created only if the document has marks of insertion. -/
theorem C102_word_to_formex (pc : Ooxml.Config) (bc : Fmx.Config) (limit : Nat) (doc mid out : Node)
    (htables : transformTables (ooxml2formex pc bc) limit doc = .ok mid) (hfin : finalize bc mid = .ok out) :
    NothingElse (InFormex bc.detectTitles bc.useCals bc.calsNs doc) (Inserted doc) doc out := by
  refine nothingElse_iff.mp (finalize_only (fun n hn => formex_names n (List.mem_of_mem_erase hn)) (fun _ _ _ _ => (formex_names _ (by decide) _).1)
    (fun q a s ty hs _ => formex_typed q a s ty hs) (transform_only ?_ only_self htables) hfin)
  intro following n e hn he
  obtain ⟨t, h1, h2⟩ := thenGenerate_ok he
  have hp := eval_run h1
  exact toFormex_only (Ooxml.parsed_reachable hp).inv (OfWord.parsed hn word_marks_formex hp) h2

/-- **C102**, Word to CALS: every tag, character, processing instruction and comment of the converted document is in the document which is converted, or is a tag
of an element of a CALS table, or, if the document has marks of insertion, a revision mark. -/
theorem C102_word_to_cals (pc : Ooxml.Config) (bc : Cals.Config) (limit : Nat) (doc out : Node)
    (htables : transformTables (ooxml2cals pc bc) limit doc = .ok out) : NothingElse (fun q _ => InCals bc.ns q) (Inserted doc) doc out := by
  refine nothingElse_iff.mp (transform_only ?_ only_self htables)
  intro following n e hn he
  obtain ⟨t, h1, h2⟩ := thenGenerate_ok he
  have hp := eval_run h1
  exact toCals_only (Ooxml.parsed_reachable hp).inv (OfWord.parsed hn word_marks_cals hp) h2

/-- **C102**, Formex to CALS: every tag, character, processing instruction and comment of the converted document is in the document which is converted, or is a tag
of an element of a CALS table. -/
theorem C102_formex_to_cals (c : Fmx2Cals.Config) (limit : Nat) (doc out : Node) (htables : Fmx2Cals.transformTables c limit doc = .ok out) :
    NothingElse (fun q _ => InCals c.builder.ns q) False doc out := by
  by_cases hroot : doc.tag? = some ⟨c.parser.ns, "CORPUS"⟩
  · unfold Fmx2Cals.transformTables at htables
    rw [if_pos (by unfold Fmx2Cals.isCorpus; rw [hroot]; exact decide_eq_true rfl)] at htables
    obtain ⟨_, _, h⟩ := bind_ok htables
    cases h
  · refine nothingElse_iff.mp (fmxInside_only ?_ only_self ((Fmx2Cals.C83_replacement c doc out hroot).mp ⟨limit, htables⟩))
    intro blk p n e hp hn he
    obtain ⟨t, h1, h2⟩ := thenGenerate_ok he
    cases hr : eval (FmxP.parseTable c.parser blk (some p) n) PState.init with
    | error x => rw [hr] at h1; cases h1
    | ok r =>
      rw [hr] at h1
      cases r with
      | none => cases h1
      | some t0 =>
        cases h1
        have hrun := eval_run hr
        exact toCals_only (inv_map _ (FmxP.parsed_reachable hrun).inv)
          (strip_meets c.parser (OfFormex.parsed hn (fun m e => by cases e; exact hp) hrun)) h2

/-- what is in `out` and is neither a tag nor a processing instruction is in `doc` -/
theorem of_nothing {made : QName → Dict QName String → Prop} {marks : Prop} {doc out : Node} (h : NothingElse made marks doc out) :
    (∀ ch, Tok.char ch ∈ toks out → Tok.char ch ∈ toks doc) ∧ (∀ c, Tok.comment c ∈ toks out → Tok.comment c ∈ toks doc) :=
  ⟨fun _ hk => (h _ hk).elim id False.elim, fun _ hk => (h _ hk).elim id False.elim⟩

/-- **C102**: whatever the format, the options and the files, a conversion which succeeds writes a document whose characters and comments are all in the document which was read. -/
theorem C102_file (env : Files.Env) (hf : FileSpec.Faithful env) (kind : Files.Kind) (kw : Files.Kwargs) (src dst : String) (fs : Files.FS)
    (h : (Files.convertFile env kind kw src dst fs).result = .ok ()) :
    ∃ doc out, FileSpec.Holds env fs src doc ∧ FileSpec.Holds env (FileSpec.atEnd fs (Files.convertFile env kind kw src dst fs)) dst out ∧
      (∀ ch, Tok.char ch ∈ toks out → Tok.char ch ∈ toks doc) ∧ (∀ c, Tok.comment c ∈ toks out → Tok.comment c ∈ toks doc) := by
  cases kind with
  | cals2formex =>
    obtain ⟨bc, pc, doc, mid, out, _, _, h1, h2, h3, h4⟩ := C96_cals_to_formex env hf kw src dst fs h
    exact ⟨doc, out, h1, h4, of_nothing (C102_cals_to_formex _ _ _ _ _ _ h2 h3)⟩
  | formex2cals =>
    obtain ⟨bc, pc, doc, out, _, _, h1, h2, h3⟩ := C96_formex_to_cals env hf kw src dst fs h
    exact ⟨doc, out, h1, h3, of_nothing (C102_formex_to_cals _ _ _ _ h2)⟩
  | ooxml2cals =>
    obtain ⟨bc, path, styles, doc, out, _, _, h1, _, h2, h3⟩ := C96_word_to_cals env hf kw src dst fs h
    exact ⟨doc, out, h1, h3, of_nothing (C102_word_to_cals _ _ _ _ _ h2)⟩
  | ooxml2formex =>
    obtain ⟨bc, path, styles, doc, mid, out, _, _, h1, _, h2, h3, h4⟩ := C96_word_to_formex env hf kw src dst fs h
    exact ⟨doc, out, h1, h4, of_nothing (C102_word_to_formex _ _ _ _ _ _ h2 h3)⟩

/-! ### examples -/

/-- the tags, characters, processing instructions and comments of `out` which are not in `doc` -/
def added (doc out : Node) : List Tok := (toks out).filter (fun k => decide (k ∉ toks doc))


/-- a Word table with a row which was inserted -/
def insertedTable : Node := wEl "tbl" [] [wEl "tblPr" [] [], wEl "tblGrid" [] [wEl "gridCol" [("w", "20")] []],
  wEl "tr" [] [wEl "trPr" [] [wEl "ins" [("id", "7"), ("author", "me")] []], wEl "tc" [] [wEl "p" [] [wEl "r" [] [wEl "t" [] []]]]]]

/-- a document with a table whose only entry is in an entry -/
def doubledDoc : Node :=
  let el (t : String) (x : Option String) (cs : List Node) : Node := .elem ⟨none, t⟩ [] x cs none
  el "doc" none [el "table" none [el "tgroup" none [el "tbody" none [el "row" none [el "entry" none [el "entry" (some "z") []]]]]]]

/-- a table in a document which has an element with a CALS style in a Formex table -/
def strayDoc : Node :=
  let el (t : String) (a : Dict QName String) (x : Option String) (cs : List Node) : Node := .elem ⟨none, t⟩ a x cs none
  el "doc" [] none [el "TBL" [] none [el "CORPUS" [] none [el "stray" [(⟨some "c", "rowstyle"⟩, "ROW-TOTAL")] (some "s") []]], styledDoc "ROW-TOTAL"]

/-- not vacuous: tables, one of them in another, and what is around them -/
example : ∃ mid out, transformTables (cals2formex ⟨none, ['m', 'm'], id⟩ againCfg) 100 convertDemo = .ok mid ∧ finalize againCfg mid = .ok out ∧ (added convertDemo out).length = 32 ∧
    (toks out).length = 67 := by
  obtain ⟨out, h, hr⟩ := image_of (show (formexOf againConv againCfg convertDemo).map (fun n => ((added convertDemo n).length, (toks n).length)) = some (32, 67) by decide +kernel)
  obtain ⟨mid, h1, h2⟩ := formexOf_ok h
  exact ⟨mid, out, h1, h2, (Prod.mk.inj hr).1, (Prod.mk.inj hr).2⟩

/-- not vacuous: a row which was inserted is between marks -/
example : Inserted (withTables insertedTable) ∧ ∃ mid out, transformTables (ooxml2formex wConfig againCfg) 100 (withTables insertedTable) = .ok mid ∧ finalize againCfg mid = .ok out ∧
    Tok.pi "change-start" "type=\"row:insertion\" change-id=\"ct7\" creator=\"me\"" ∈ added (withTables insertedTable) out := by
  refine ⟨⟨[(Ooxml.w "id", "7"), (Ooxml.w "author", "me")], by decide +kernel⟩, ?_⟩
  obtain ⟨out, h, hr⟩ := image_of (show (formexOf (ooxml2formex wConfig againCfg) againCfg (withTables insertedTable)).map (fun n =>
    decide (Tok.pi "change-start" "type=\"row:insertion\" change-id=\"ct7\" creator=\"me\"" ∈ added (withTables insertedTable) n)) = some true by decide +kernel)
  obtain ⟨mid, h1, h2⟩ := formexOf_ok h
  exact ⟨mid, out, h1, h2, of_decide_eq_true hr⟩

/-- not vacuous: the same, in CALS -/
example : ∃ out, transformTables (ooxml2cals wConfig calsConfig) 100 (withTables insertedTable) = .ok out ∧
    Tok.pi "change-start" "type=\"row:insertion\" change-id=\"ct7\" creator=\"me\"" ∈ added (withTables insertedTable) out := by
  obtain ⟨out, h, hr⟩ := image_of (show ((transformTables (ooxml2cals wConfig calsConfig) 100 (withTables insertedTable)).toOption).map (fun n =>
    decide (Tok.pi "change-start" "type=\"row:insertion\" change-id=\"ct7\" creator=\"me\"" ∈ added (withTables insertedTable) n)) = some true by decide +kernel)
  exact ⟨out, Files.toOption_ok h, of_decide_eq_true hr⟩

/-- not vacuous: a Formex table with a title and notes, which contains another one -/
example : ∃ out, Fmx2Cals.transformTables Fmx2Cals.fmxDocConfig 100 Fmx2Cals.fmxDocDemo = .ok out ∧ (added Fmx2Cals.fmxDocDemo out).length = 34 := by
  obtain ⟨out, h, hr⟩ := image_of (show ((Fmx2Cals.transformTables Fmx2Cals.fmxDocConfig 100 Fmx2Cals.fmxDocDemo).toOption).map (fun n =>
    (added Fmx2Cals.fmxDocDemo n).length) = some 34 by decide +kernel)
  exact ⟨out, Files.toOption_ok h, hr⟩

/-- an element which is in a Formex table of the document may be given a type, whatever its name -/
example : (formexOf againConv againCfg strayDoc).map (fun n => decide (Tok.opening ⟨none, "stray"⟩ [(⟨some "c", "rowstyle"⟩, "ROW-TOTAL"), (⟨none, "TYPE"⟩, "TOTAL")] ∈ added strayDoc n)) = some true := by decide +kernel

/-- what is in the document may be repeated: the character of an entry which is in an entry is written twice -/
theorem C102_repeated_counterexample : ∃ (pc : CalsP.Config) (bc : Fmx.Config) (doc mid out : Node), transformTables (cals2formex pc bc) 100 doc = .ok mid ∧ finalize bc mid = .ok out ∧
    (toks doc).count (.char 'z') = 1 ∧ (toks out).count (.char 'z') = 2 := by
  obtain ⟨out, h, hr⟩ := image_of (show (formexOf againConv againCfg doubledDoc).map (fun n => (toks n).count (.char 'z')) = some 2 by decide +kernel)
  obtain ⟨mid, h1, h2⟩ := formexOf_ok h
  exact ⟨⟨none, ['m', 'm'], id⟩, againCfg, doubledDoc, mid, out, h1, h2, by decide +kernel, hr⟩

end Benker.Origin
