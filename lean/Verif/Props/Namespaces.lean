import Verif.Model.Namespaces
import Verif.Spec.Namespaces
import Verif.Props.Origin

/-! C103: which namespaces the elements have when a converted document is read again. -/

namespace Benker.Namespaces
open PyM Fmx Benker.Convert Files FileSpec NamespaceSpec Origin

theorem named_cons {n : Node} {ns : List Node} (h : ∀ q a, Tok.opening q a ∈ toksList (n :: ns) → q.ns ≠ none) :
    AllNamed n ∧ ∀ q a, Tok.opening q a ∈ toksList ns → q.ns ≠ none := by
  unfold toksList at h
  exact ⟨fun q a hk => h q a (List.mem_append_left _ hk), fun q a hk => h q a (List.mem_append_right _ hk)⟩

mutual
/-- **C103**: a document whose elements are all in a namespace is read as it was, whatever the declarations. -/
theorem C103_named (may : QName → Option String → Prop) (d : Option String) : ∀ (n n' : Node), AllNamed n → Reread may d n n' → n' = n
  | .elem t a x cs tl, n', hn, h => by
    obtain ⟨d', cs', _, h1, rfl⟩ := h
    rw [if_neg (hn t a (by simp [toks])), C103_named_list may d' cs cs' (fun q a hk => hn q a (by simp [toks, hk])) h1]
  | .pi .., _, _, h => h
  | .comment .., _, _, h => h
/-- the same, for some nodes -/
theorem C103_named_list (may : QName → Option String → Prop) (d : Option String) :
    ∀ (ns ns' : List Node), (∀ q a, Tok.opening q a ∈ toksList ns → q.ns ≠ none) → RereadList may d ns ns' → ns' = ns
  | [], _, _, h => h
  | n :: ns, ns', hn, h => by
    obtain ⟨m, ms, h1, h2, rfl⟩ := h
    obtain ⟨g1, g2⟩ := named_cons hn
    rw [C103_named may d n m g1 h1, C103_named_list may d ns ms g2 h2]
end

mutual
/-- **C103**: where no default namespace is declared, a document is read as it was. -/
theorem C103_undeclared (may : QName → Option String → Prop) (hmay : ∀ q d, ¬ may q d) : ∀ (n n' : Node), Reread may none n n' → n' = n
  | .elem t a x cs tl, n', h => by
    obtain ⟨d', cs', hd, h1, rfl⟩ := h
    cases hd.resolve_right (hmay _ _)
    rw [C103_undeclared_list may hmay cs cs' h1]
    split
    · rename_i e
      obtain ⟨ns, name⟩ := t
      cases e
      rfl
    · rfl
  | .pi .., _, h => h
  | .comment .., _, h => h
/-- the same, for some nodes -/
theorem C103_undeclared_list (may : QName → Option String → Prop) (hmay : ∀ q d, ¬ may q d) : ∀ (ns ns' : List Node), RereadList may none ns ns' → ns' = ns
  | [], _, h => h
  | n :: ns, ns', h => by
    obtain ⟨m, ms, h1, h2, rfl⟩ := h
    rw [C103_undeclared may hmay n m h1, C103_undeclared_list may hmay ns ms h2]
end

theorem same_text (x : Option String) : All₂ SameButNames (textToks x) (textToks x) := by
  have h : ∀ l : List Char, All₂ SameButNames (l.map Tok.char) (l.map Tok.char) := by
    intro l
    induction l with
    | nil => exact .nil
    | cons c l ih => exact .cons rfl ih
  cases x with
  | none => exact .nil
  | some x => exact h _

mutual
/-- **C103**: whatever the declarations, the document which is read has the elements of the one which was written, in the same places, with the same names, attributes, texts, comments
and processing instructions; those which have a namespace keep it. -/
theorem C103_same (may : QName → Option String → Prop) (d : Option String) : ∀ (n n' : Node), Reread may d n n' → All₂ SameButNames (toks n) (toks n')
  | .elem t a x cs tl, n', h => by
    obtain ⟨d', cs', _, h1, rfl⟩ := h
    have hq : (if t.ns = none then (⟨d', t.name⟩ : QName) else t).name = t.name ∧ (t.ns ≠ none → (if t.ns = none then (⟨d', t.name⟩ : QName) else t) = t) := by
      by_cases e : t.ns = none
      · rw [if_pos e]; exact ⟨rfl, fun hn => absurd e hn⟩
      · rw [if_neg e]; exact ⟨rfl, fun _ => rfl⟩
    unfold toks
    exact All₂.append (.cons ⟨_, rfl, hq⟩ (All₂.append (All₂.append (same_text x) (C103_same_list may d' cs cs' h1)) (.cons ⟨_, rfl, hq⟩ .nil))) (same_text tl)
  | .pi t dt tl, _, h => by cases h; unfold toks; exact .cons rfl (same_text tl)
  | .comment dt tl, _, h => by cases h; unfold toks; exact .cons rfl (same_text tl)
/-- the same, for some nodes -/
theorem C103_same_list (may : QName → Option String → Prop) (d : Option String) : ∀ (ns ns' : List Node), RereadList may d ns ns' → All₂ SameButNames (toksList ns) (toksList ns')
  | [], _, h => by cases h; exact .nil
  | n :: ns, ns', h => by
    obtain ⟨m, ms, h1, h2, rfl⟩ := h
    unfold toksList
    exact All₂.append (C103_same may d n m h1) (C103_same_list may d ns ms h2)
end

/-! ### conversions -/

/-- **C103**, Word to CALS: if the elements of the Word document are all in a namespace, as those of Word are, and if a namespace is given for the CALS elements, with or without a prefix,
the document which was written is read as it was. -/
theorem C103_word_to_cals_partial (pc : Ooxml.Config) (bc : Cals.Config) (limit : Nat) (doc out : Node) (hdoc : AllNamed doc) (hns : bc.ns ≠ none)
    (htables : transformTables (ooxml2cals pc bc) limit doc = .ok out) (may : QName → Option String → Prop) (d : Option String) (n' : Node) (h : Reread may d out n') : n' = out := by
  refine C103_named may d out n' (fun q a hk => ?_) h
  rcases C102_word_to_cals pc bc limit doc out htables _ hk with hk | hk
  · exact hdoc q a hk
  · rw [hk.1]
    exact hns

/-- the default namespaces which may be declared in a converted document: those which were declared in the source, and the one of the builder on what it makes -/
def Declares (source : QName → Option String → Prop) (made : QName → Prop) (default : Option String) (q : QName) (d : Option String) : Prop :=
  source q d ∨ (made q ∧ d = default ∧ default ≠ none)

/-- **C103**, to CALS: with a prefix, or without a namespace, the document which was written is read as it was, if the source declares no default namespace. -/
theorem C103_to_cals_prefixed_partial (prefix_ ns : Option String) (h : prefix_ ≠ none ∨ ns = none) (out n' : Node)
    (hr : Reread (Declares (fun _ _ => False) (InCals ns) (calsDefault prefix_ ns)) none out n') : n' = out := by
  refine C103_undeclared _ (fun q d hd => ?_) out n' hr
  rcases hd with hd | ⟨_, _, hd⟩
  · exact hd
  · unfold calsDefault at hd
    rcases h with h | h
    · rw [if_neg h] at hd; exact hd rfl
    · subst h
      split at hd <;> exact hd rfl

/-- **C103**, to Formex: with a prefix, or without CALS attributes, or without a namespace, the document which was written is read as it was, if the source declares no default namespace. -/
theorem C103_to_formex_prefixed_partial (useCals : Bool) (prefix_ ns : Option String) (h : useCals = false ∨ prefix_ ≠ none ∨ ns = none) (made : QName → Prop) (out n' : Node)
    (hr : Reread (Declares (fun _ _ => False) made (formexDefault useCals prefix_ ns)) none out n') : n' = out := by
  refine C103_undeclared _ (fun q d hd => ?_) out n' hr
  rcases hd with hd | ⟨_, _, hd⟩
  · exact hd
  · unfold formexDefault at hd
    rcases h with h | h | h
    · rw [if_neg (by simp [h])] at hd; exact hd rfl
    · rw [if_neg (by simp [h])] at hd; exact hd rfl
    · subst h
      split at hd <;> exact hd rfl

/-! ### files -/

theorem written_library {env : Env} (hl : Library env) {fs : FS} {path : String} {n : Node} (h : Written env fs path n) :
    ∃ n', Reread (fun _ _ => True) none n n' ∧ Holds env fs path n' := by
  obtain ⟨enc, chunks, h1, h2⟩ := h
  obtain ⟨n', h3, h4⟩ := hl _ _ _ h1
  exact ⟨n', h3, _, h2, h4⟩

/-- **C103**, Word to CALS: the file which was written holds the conversion of the source, whatever the library does with default namespaces, if the elements of the source are all
in a namespace and if the option `cals_ns` gives one. -/
theorem C103_file_word_to_cals_partial (env : Env) (hl : Library env) (kw : Kwargs) (src dst : String) (fs : FS) (ns : String) (hne : ns ≠ "") (hns : Dict.get? kw "cals_ns" = some (.str ns))
    (h : (convertFile env .ooxml2cals kw src dst fs).result = .ok ()) :
    ∃ (bc : Cals.Config) (styles : Option Node) (doc out : Node), CalsOptions env kw bc ∧ Holds env fs src doc ∧ GivenStyles env fs kw doc styles ∧
      transformTables (ooxml2cals ⟨env.float, env.fl, env.repr, env.recursion, styles⟩ bc) env.depth doc = .ok out ∧
      (AllNamed doc → Holds env (atEnd fs (convertFile env .ooxml2cals kw src dst fs)) dst out) := by
  obtain ⟨bc, path, styles, doc, out, h1, h2, h3, h4, h5, h6⟩ := written_word_to_cals env kw src dst fs h
  have hb : CalsOptions env kw bc := calsOptions_iff.mp h1
  refine ⟨bc, styles, doc, out, hb, h3, ?_, h5, fun hd => ?_⟩
  · exact styles_given h4 h2
  · obtain ⟨n', g1, g2⟩ := written_library hl h6
    have hn := hb.namespace_
    unfold GivenName at hn
    rw [hns] at hn
    simp only [if_neg hne] at hn
    rw [C103_word_to_cals_partial _ bc _ doc out hd (by rw [hn]; simp) h5 _ none n' g1] at g2
    exact g2

/-- what is read of a token which is neither a tag nor changed -/
theorem all₂_mem_back {R : Tok → Tok → Prop} {l m : List Tok} (h : All₂ R l m) {k : Tok} (hk : k ∈ m) : ∃ j ∈ l, R j k := by
  induction h with
  | nil => cases hk
  | cons h _ ih =>
    cases hk with
    | head => exact ⟨_, by simp, h⟩
    | tail _ hk =>
      obtain ⟨j, hj, hr⟩ := ih hk
      exact ⟨j, by simp [hj], hr⟩

theorem reread_texts {may : QName → Option String → Prop} {d : Option String} {doc n n' : Node} (h : Reread may d n n')
    (hn : (∀ ch, Tok.char ch ∈ toks n → Tok.char ch ∈ toks doc) ∧ (∀ c, Tok.comment c ∈ toks n → Tok.comment c ∈ toks doc)) :
    (∀ ch, Tok.char ch ∈ toks n' → Tok.char ch ∈ toks doc) ∧ (∀ c, Tok.comment c ∈ toks n' → Tok.comment c ∈ toks doc) := by
  have hs := C103_same may d n n' h
  refine ⟨fun ch hk => ?_, fun c hk => ?_⟩ <;> obtain ⟨j, hj, hr⟩ := all₂_mem_back hs hk <;> cases j <;> first
    | (obtain ⟨_, e, _⟩ := hr; cases e)
    | (cases hr; done)
    | (cases hr; exact hn.1 _ hj)
    | (cases hr; exact hn.2 _ hj)

/-- **C103**: whatever the library does with default namespaces, the four conversions write documents whose characters and comments are all in the document which was read. -/
theorem C103_file (env : Env) (hl : Library env) (kind : Kind) (kw : Kwargs) (src dst : String) (fs : FS) (h : (convertFile env kind kw src dst fs).result = .ok ()) :
    ∃ doc out, Holds env fs src doc ∧ Holds env (atEnd fs (convertFile env kind kw src dst fs)) dst out ∧
      (∀ ch, Tok.char ch ∈ toks out → Tok.char ch ∈ toks doc) ∧ (∀ c, Tok.comment c ∈ toks out → Tok.comment c ∈ toks doc) := by
  cases kind with
  | cals2formex =>
    obtain ⟨bc, pc, doc, mid, out, _, _, h1, h2, h3, h4⟩ := written_cals_to_formex env kw src dst fs h
    obtain ⟨n', g1, g2⟩ := written_library hl h4
    exact ⟨doc, n', h1, g2, reread_texts g1 (of_nothing (C102_cals_to_formex _ _ _ _ _ _ h2 h3))⟩
  | formex2cals =>
    obtain ⟨bc, pc, doc, out, _, _, h1, h2, h3⟩ := written_formex_to_cals env kw src dst fs h
    obtain ⟨n', g1, g2⟩ := written_library hl h3
    exact ⟨doc, n', h1, g2, reread_texts g1 (of_nothing (C102_formex_to_cals _ _ _ _ h2))⟩
  | ooxml2cals =>
    obtain ⟨bc, path, styles, doc, out, _, _, h1, _, h2, h3⟩ := written_word_to_cals env kw src dst fs h
    obtain ⟨n', g1, g2⟩ := written_library hl h3
    exact ⟨doc, n', h1, g2, reread_texts g1 (of_nothing (C102_word_to_cals _ _ _ _ _ h2))⟩
  | ooxml2formex =>
    obtain ⟨bc, path, styles, doc, mid, out, _, _, h1, _, h2, h3, h4⟩ := written_word_to_formex env kw src dst fs h
    obtain ⟨n', g1, g2⟩ := written_library hl h4
    exact ⟨doc, n', h1, g2, reread_texts g1 (of_nothing (C102_word_to_formex _ _ _ _ _ _ h2 h3))⟩

/-! ### default namespaces which capture elements -/

mutual
/-- the model of what is read is one of those which the specification allows -/
theorem readBack_reread (may : QName → Option String → Prop) (decl : QName → Option String) (h : ∀ q d, decl q = some d → may q (some d)) (d : Option String) :
    ∀ n, Reread may d n (readBack decl d n)
  | .elem t a x cs tl => by
    refine ⟨(decl t).or d, readBackList decl ((decl t).or d) cs, ?_, readBackList_reread may decl h _ cs, rfl⟩
    cases e : decl t with
    | none => exact .inl rfl
    | some v => exact .inr (h t v e)
  | .pi .. => rfl
  | .comment .. => rfl
/-- the same, for some nodes -/
theorem readBackList_reread (may : QName → Option String → Prop) (decl : QName → Option String) (h : ∀ q d, decl q = some d → may q (some d)) (d : Option String) :
    ∀ ns, RereadList may d ns (readBackList decl d ns)
  | [] => rfl
  | n :: ns => ⟨_, _, readBack_reread may decl h d n, readBackList_reread may decl h d ns, rfl⟩
end

/-- a Formex document with a paragraph in a cell -/
def paragraphDoc : Node :=
  let el (t : String) (x : Option String) (cs : List Node) : Node := .elem ⟨none, t⟩ [] x cs none
  el "doc" none [el "TBL" none [el "CORPUS" none [el "ROW" none [el "CELL" none [el "P" (some "text") []]]]]]

/-- a CALS document in the namespace "c" -/
def spacedDoc : Node :=
  let el (t : String) (x : Option String) (cs : List Node) : Node := .elem ⟨some "c", t⟩ [] x cs none
  el "doc" none [el "table" none [el "tgroup" none [el "tbody" none [el "row" none [el "entry" (some "text") []]]]]]

def spacedCals : Cals.Config := { calsConfig with ns := some "c" }

/-- the CALS elements declare the default namespace of their builder -/
def calsDecl (ns default : Option String) (q : QName) : Option String := if q.ns = ns ∧ q.name ∈ calsNames then default else none

/-- the elements of the Formex builder which are given its declarations -/
def formexDecl (ns default : Option String) (q : QName) : Option String := if q = ⟨none, "TBL"⟩ ∨ q = ⟨ns, "colspec"⟩ then default else none

def hasElem (q : QName) (n : Node) : Bool := (toks n).any (fun k => match k with | .opening q' _ => decide (q' = q) | _ => false)

/-- C103 does not hold of Formex to CALS if a namespace is given without a prefix: what is in the entries is read in that namespace. -/
theorem C103_contents_counterexample : ∃ (c : Fmx2Cals.Config) (doc out : Node), Fmx2Cals.transformTables c 100 doc = .ok out ∧
    hasElem ⟨none, "P"⟩ out = true ∧ hasElem ⟨c.builder.ns, "P"⟩ out = false ∧
    hasElem ⟨none, "P"⟩ (readBack (calsDecl c.builder.ns (calsDefault none c.builder.ns)) none out) = false ∧
    hasElem ⟨c.builder.ns, "P"⟩ (readBack (calsDecl c.builder.ns (calsDefault none c.builder.ns)) none out) = true := by
  obtain ⟨out, h, hr⟩ := image_of (show ((Fmx2Cals.transformTables ⟨⟨none, none, false⟩, spacedCals⟩ 100 paragraphDoc).toOption).map (fun n =>
    let m := readBack (calsDecl (some "c") (calsDefault none (some "c"))) none n
    (hasElem ⟨none, "P"⟩ n, hasElem ⟨some "c", "P"⟩ n, hasElem ⟨none, "P"⟩ m, hasElem ⟨some "c", "P"⟩ m)) = some (true, false, false, true) by decide +kernel)
  simp only [Prod.mk.injEq] at hr
  exact ⟨⟨⟨none, none, false⟩, spacedCals⟩, paragraphDoc, out, toOption_ok h, hr.1, hr.2.1, hr.2.2.1, hr.2.2.2⟩

/-- C103 does not hold of a conversion to Formex with CALS attributes in a namespace which is given without a prefix: the table itself is read in that namespace. -/
theorem C103_table_counterexample : ∃ (pc : CalsP.Config) (bc : Fmx.Config) (doc mid out : Node), transformTables (cals2formex pc bc) 100 doc = .ok mid ∧ finalize bc mid = .ok out ∧
    hasElem ⟨none, "TBL"⟩ out = true ∧ hasElem ⟨none, "TBL"⟩ (readBack (formexDecl bc.calsNs (formexDefault bc.useCals none bc.calsNs)) none out) = false ∧
    hasElem ⟨bc.calsNs, "TBL"⟩ (readBack (formexDecl bc.calsNs (formexDefault bc.useCals none bc.calsNs)) none out) = true := by
  obtain ⟨out, h, hr⟩ := image_of (show (formexOf againConv againCfg convertDemo).map (fun n =>
    let m := readBack (formexDecl (some "c") (formexDefault true none (some "c"))) none n
    (hasElem ⟨none, "TBL"⟩ n, hasElem ⟨none, "TBL"⟩ m, hasElem ⟨some "c", "TBL"⟩ m)) = some (true, false, true) by decide +kernel)
  obtain ⟨mid, h1, h2⟩ := formexOf_ok h
  simp only [Prod.mk.injEq] at hr
  exact ⟨_, _, convertDemo, mid, out, h1, h2, hr.1, hr.2.1, hr.2.2⟩

/-- C103 does not hold of a conversion to Formex, whatever its options, if the source declares a default namespace: the tables are read in that namespace. -/
theorem C103_source_counterexample : ∃ (pc : CalsP.Config) (bc : Fmx.Config) (doc mid out : Node), AllNamed doc ∧
    transformTables (cals2formex pc bc) 100 doc = .ok mid ∧ finalize bc mid = .ok out ∧ hasElem ⟨none, "TBL"⟩ out = true ∧
    (∀ q ∈ [⟨none, "TBL"⟩, ⟨none, "CORPUS"⟩, ⟨none, "ROW"⟩], hasElem q (readBack (fun q => if q = ⟨some "c", "doc"⟩ then some "c" else none) none out) = false) := by
  obtain ⟨out, h, hr⟩ := image_of (show (formexOf (cals2formex ⟨some "c", ['m', 'm'], id⟩ ⟨false, false, none, ['m', 'm'], id⟩) ⟨false, false, none, ['m', 'm'], id⟩ spacedDoc).map (fun n =>
    (hasElem ⟨none, "TBL"⟩ n, [⟨none, "TBL"⟩, ⟨none, "CORPUS"⟩, ⟨none, "ROW"⟩].all (fun q => !hasElem q (readBack (fun q => if q = ⟨some "c", "doc"⟩ then some "c" else none) none n)))) =
    some (true, true) by decide +kernel)
  obtain ⟨mid, h1, h2⟩ := formexOf_ok h
  simp only [Prod.mk.injEq] at hr
  refine ⟨_, _, spacedDoc, mid, out, ?_, h1, h2, hr.1, ?_⟩
  · intro q a hk
    have : ∀ k ∈ toks spacedDoc, (match k with | .opening q _ => decide (q.ns ≠ none) | _ => true) = true := by decide +kernel
    exact of_decide_eq_true (this _ hk)
  · intro q hq
    have := List.all_eq_true.mp hr.2 q hq
    simpa using this

/-! ### files: examples -/

open Classical in
/-- a library which reads the names without prefix in the default namespaces which are declared -/
noncomputable def envCaptured (decl : QName → Option String) (doc out : Node) : Env where
  read b := if b = [1] then .ok doc else if b = [2, 3] then .ok (readBack decl none out) else if b = [4] then .ok sheetDemo else .error .valueError
  write _ n := if n = out then .ok [[2], [3]] else .error .valueError
  fl := id
  float := wConfig.float
  repr := wConfig.repr
  recursion := wConfig.limit
  depth := 100

theorem envCaptured_library (decl : QName → Option String) (doc out : Node) : Library (envCaptured decl doc out) := by
  intro enc n chunks h
  simp only [envCaptured] at h ⊢
  split at h
  · cases h
    rename_i e
    subst e
    exact ⟨_, readBack_reread _ decl (fun _ _ _ => trivial) none n, by simp⟩
  · cases h

theorem envCaptured_run {decl : QName → Option String} {doc out : Node} {kind : Kind} {kw : Kwargs} {enc : String}
    (h : readFile (envCaptured decl doc out) fsRead "a.xml" = .ok doc → output (envCaptured decl doc out) kind kw "a.xml" fsRead = (envCaptured decl doc out).write enc out) :
    (convertFile (envCaptured decl doc out) kind kw "a.xml" "b.xml" fsRead).result = .ok () ∧ Holds (envCaptured decl doc out) fsRead "a.xml" doc ∧
    Holds (envCaptured decl doc out) (atEnd fsRead (convertFile (envCaptured decl doc out) kind kw "a.xml" "b.xml" fsRead)) "b.xml" (readBack decl none out) := by
  have e1 : output (envCaptured decl doc out) kind kw "a.xml" fsRead = .ok [[2], [3]] := by
    rw [h (by simp [readFile, fsRead, envCaptured])]
    simp [envCaptured]
  refine ⟨by unfold convertFile; rw [e1], ⟨[1], by simp [fsRead], by simp [envCaptured]⟩, ⟨[2, 3], by rw [run_end e1]; simp [put], by simp [envCaptured]⟩⟩

/-- C103 does not hold of files: with a library which reads the names without prefix in the default namespace which the builder has declared, a paragraph of the source is, in the file which
was written, in the namespace of CALS. -/
theorem C103_file_counterexample : ∃ (env : Env) (doc out : Node), Library env ∧ (convertFile env .formex2cals [("cals_ns", .str "c")] "a.xml" "b.xml" fsRead).result = .ok () ∧
    Holds env fsRead "a.xml" doc ∧ Holds env (atEnd fsRead (convertFile env .formex2cals [("cals_ns", .str "c")] "a.xml" "b.xml" fsRead)) "b.xml" out ∧
    hasElem ⟨none, "P"⟩ doc = true ∧ hasElem ⟨some "c", "P"⟩ doc = false ∧ hasElem ⟨none, "P"⟩ out = false ∧ hasElem ⟨some "c", "P"⟩ out = true := by
  obtain ⟨out, h, hr⟩ := image_of (show ((Fmx2Cals.transformTables ⟨⟨none, some "c", false⟩, spacedCals⟩ 100 paragraphDoc).toOption).map (fun n =>
    let m := readBack (calsDecl (some "c") (calsDefault none (some "c"))) none n
    (hasElem ⟨none, "P"⟩ m, hasElem ⟨some "c", "P"⟩ m)) = some (false, true) by decide +kernel)
  simp only [Prod.mk.injEq] at hr
  obtain ⟨h1, h2, h3⟩ := envCaptured_run (decl := calsDecl (some "c") (calsDefault none (some "c"))) (doc := paragraphDoc) (out := out) (kind := .formex2cals) (kw := [("cals_ns", .str "c")])
    (fun hr => output_f2c hr rfl rfl rfl (toOption_ok h))
  exact ⟨_, paragraphDoc, _, envCaptured_library _ _ _, h1, h2, h3, by decide +kernel, by decide +kernel, hr.1, hr.2⟩

/-- a Word document, whose elements are all in the namespace of Word -/
def wordDoc : Node := wEl "document" [] [wEl "body" [] [wordMerge, wEl "p" [] []]]

theorem wordDoc_named : AllNamed wordDoc := by
  intro q a hk
  have : ∀ k ∈ toks wordDoc, (match k with | .opening q _ => decide (q.ns ≠ none) | _ => true) = true := by decide +kernel
  exact of_decide_eq_true (this _ hk)

/-- not vacuous: a Word document, to CALS in a namespace which is declared without a prefix, with the same library -/
example : ∃ (env : Env) (out : Node), Library env ∧ (convertFile env .ooxml2cals [("cals_ns", .str "c"), ("styles_path", .str "s.xml")] "a.xml" "b.xml" fsRead).result = .ok () ∧
    Holds env fsRead "a.xml" wordDoc ∧ AllNamed wordDoc ∧
    Holds env (atEnd fsRead (convertFile env .ooxml2cals [("cals_ns", .str "c"), ("styles_path", .str "s.xml")] "a.xml" "b.xml" fsRead)) "b.xml" out ∧ hasElem ⟨some "c", "entry"⟩ out = true := by
  obtain ⟨out, h, hr⟩ := image_of (show ((transformTables (ooxml2cals wConfig spacedCals) 100 wordDoc).toOption).map (fun n =>
    hasElem ⟨some "c", "entry"⟩ (readBack (calsDecl (some "c") (calsDefault none (some "c"))) none n)) = some true by decide +kernel)
  obtain ⟨h1, h2, h3⟩ := envCaptured_run (decl := calsDecl (some "c") (calsDefault none (some "c"))) (doc := wordDoc) (out := out) (kind := .ooxml2cals)
    (kw := [("cals_ns", .str "c"), ("styles_path", .str "s.xml")])
    (fun hr => output_o2c (path := some "s.xml") (styles := some sheetDemo) hr rfl rfl (by simp [wordStyles, readFile, fsRead, envCaptured]; rfl) rfl (toOption_ok h))
  exact ⟨_, _, envCaptured_library _ _ _, h1, h2, wordDoc_named, h3, hr⟩

/-- not vacuous: with a prefix nothing is declared, and elements without a namespace keep none -/
example : Reread (Declares (fun _ _ => False) (InCals (some "c")) (calsDefault (some "p") (some "c"))) none paragraphDoc paragraphDoc ∧ ¬ AllNamed paragraphDoc := by
  refine ⟨?_, fun h => h ⟨none, "doc"⟩ [] (by decide +kernel) rfl⟩
  have h := readBack_reread (Declares (fun _ _ => False) (InCals (some "c")) (calsDefault (some "p") (some "c"))) (fun _ => none) (fun _ _ e => by cases e) none paragraphDoc
  rwa [C103_to_cals_prefixed_partial (some "p") (some "c") (.inl (by decide)) _ _ h] at h

end Benker.Namespaces
