import Verif.Spec.FormexText
import Verif.Props.FormexBlocks
import Verif.Props.FormexNumbers
import Verif.Props.FormexRow
import Verif.Props.Xml
import Verif.Lemmas.Except

/-! The text of a Formex document through its finalisation. -/

namespace Benker
open FmxSpec Fmx CalsSpec

/-- the text of a node, tail included -/
abbrev nodeChars (n : Node) : List Char := charsOf (toks n)
/-- the text of nodes -/
abbrev listChars (ns : List Node) : List Char := charsOf (toksList ns)

theorem chars_text (x : Option String) : charsOf (textToks x) = chars x := by
  cases x with
  | none => rfl
  | some s => exact charsOf_map s.toList

theorem chars_safe (x : Option String) : (Node.safeText x).toList = chars x := by cases x <;> rfl

theorem nodeChars_elem (t : QName) (a : Dict QName String) (x : Option String) (cs : List Node) (tl : Option String) :
    nodeChars (.elem t a x cs tl) = chars x ++ listChars cs ++ chars tl := by
  simp [nodeChars, listChars, toks, charsOf, charsOf_append, chars_text]

theorem nodeChars_pi (t d : String) (tl : Option String) : nodeChars (.pi t d tl) = chars tl := by simp [nodeChars, toks, charsOf, chars_text]
theorem nodeChars_comment (d : String) (tl : Option String) : nodeChars (.comment d tl) = chars tl := by simp [nodeChars, toks, charsOf, chars_text]

theorem listChars_cons (n : Node) (ns : List Node) : listChars (n :: ns) = nodeChars n ++ listChars ns := by
  simp [listChars, nodeChars, toksList, charsOf_append]

theorem listChars_append (l l' : List Node) : listChars (l ++ l') = listChars l ++ listChars l' := by
  simp [listChars, toksList_append, charsOf_append]

@[simp] theorem listChars_nil : listChars [] = [] := rfl

theorem listChars_one (n : Node) : listChars [n] = nodeChars n := by simp [listChars_cons]

theorem listChars_empty {ns : List Node} : listChars ns = [] ↔ ∀ n ∈ ns, NoText n := by
  induction ns with
  | nil => simp
  | cons n ns ih => rw [listChars_cons, List.append_eq_nil_iff, ih]; simp [NoText]

theorem innerText_chars {t : QName} {a : Dict QName String} {x : Option String} {cs : List Node} {tl : Option String} :
    (Node.elem t a x cs tl).innerText = "" ↔ chars x ++ listChars cs = [] := by
  rw [← String.toList_inj]
  simp [Node.innerText, chars_safe, listChars, childrenText_chars]

/-! ### the reading of a text -/

theorem bodyTextList_append (l l' : List Node) : bodyTextList (l ++ l') = bodyTextList l ++ bodyTextList l' := by
  induction l with
  | nil => rfl
  | cons n ns ih => simp [bodyTextList, ih]

theorem notesTextList_append (l l' : List Node) : notesTextList (l ++ l') = notesTextList l ++ notesTextList l' := by
  induction l with
  | nil => rfl
  | cons n ns ih => simp [notesTextList, ih]

theorem tableText_nil (ns : List Node) : tableText [] ns = bodyTextList ns := by
  induction ns with
  | nil => rfl
  | cons n ns ih => unfold tableText; rw [ih]; simp [bodyTextList]

mutual
theorem noText_body (n : Node) (h : NoText n) : bodyText n = [] ∧ notesText n = [] := by
  cases n with
  | elem t a x cs tl =>
    have h : nodeChars (.elem t a x cs tl) = [] := h
    rw [nodeChars_elem, List.append_eq_nil_iff, List.append_eq_nil_iff] at h
    obtain ⟨⟨h1, h2⟩, h3⟩ := h
    obtain ⟨h4, h5⟩ := noText_bodyList cs h2
    unfold bodyText notesText
    rw [h1, h3, h4, h5, tableText_nil, h4]
    simp
  | pi t d tl => have h : nodeChars (.pi t d tl) = [] := h; rw [nodeChars_pi] at h; exact ⟨by unfold bodyText; exact h, by simp [notesText]⟩
  | comment d tl => have h : nodeChars (.comment d tl) = [] := h; rw [nodeChars_comment] at h; exact ⟨by unfold bodyText; exact h, by simp [notesText]⟩
theorem noText_bodyList (ns : List Node) (h : listChars ns = []) : bodyTextList ns = [] ∧ notesTextList ns = [] := by
  cases ns with
  | nil => exact ⟨rfl, rfl⟩
  | cons n ns =>
    rw [listChars_cons, List.append_eq_nil_iff] at h
    obtain ⟨h1, h2⟩ := noText_body n h.1
    obtain ⟨h3, h4⟩ := noText_bodyList ns h.2
    exact ⟨by simp [bodyTextList, h1, h3], by simp [notesTextList, h2, h4]⟩
end

mutual
theorem noFooter_body (n : Node) (h : NoFooter n) : bodyText n = nodeChars n ∧ notesText n = [] := by
  cases n with
  | elem t a x cs tl =>
    unfold NoFooter at h
    obtain ⟨h4, h5⟩ := noFooter_bodyList cs h.2
    unfold bodyText notesText
    rw [if_neg h.1, nodeChars_elem, h4, h5, tableText_nil, h4]
    simp [h.1]
  | pi t d tl => exact ⟨by rw [nodeChars_pi, bodyText], by simp [notesText]⟩
  | comment d tl => exact ⟨by rw [nodeChars_comment, bodyText], by simp [notesText]⟩
theorem noFooter_bodyList (ns : List Node) (h : NoFooterList ns) : bodyTextList ns = listChars ns ∧ notesTextList ns = [] := by
  cases ns with
  | nil => exact ⟨rfl, rfl⟩
  | cons n ns =>
    unfold NoFooterList at h
    obtain ⟨h1, h2⟩ := noFooter_body n h.1
    obtain ⟨h3, h4⟩ := noFooter_bodyList ns h.2
    exact ⟨by rw [bodyTextList, listChars_cons, h1, h3], by simp [notesTextList, h2, h4]⟩
end

/-! ### extraction of the notes -/

mutual
/-- the condition on title rows which remains after the extraction of the notes -/
def TitlesOk (style : QName) (inCorpus : Bool) : Node → Prop
  | .elem t a x cs tl =>
    (inCorpus = true → TitleStyle (Dict.get? a style) → t = name "ROW" ∧ TitleTidy (.elem t a x cs tl)) ∧ TitlesOkList style (t = name "CORPUS") cs
  | _ => True
def TitlesOkList (style : QName) (inCorpus : Bool) : List Node → Prop
  | [] => True
  | n :: ns => TitlesOk style inCorpus n ∧ TitlesOkList style inCorpus ns
end

theorem titlesOkList_iff {style : QName} {b : Bool} {ns : List Node} : TitlesOkList style b ns ↔ ∀ n ∈ ns, TitlesOk style b n := by
  induction ns with
  | nil => simp [TitlesOkList]
  | cons n ns ih => simp [TitlesOkList, ih]

theorem tidyList_iff {style : QName} {b b' : Bool} {ns : List Node} : TidyList style b b' ns ↔ ∀ n ∈ ns, Tidy style b b' n := by
  induction ns with
  | nil => simp [TidyList]
  | cons n ns ih => simp [TidyList, ih]

/-- the text of a note -/
def noteChars (k : Note) : List Char := chars k.before ++ listChars k.nodes

theorem nodeChars_addTail (s : String) (n : Node) : nodeChars (addTail s n) = nodeChars n ++ s.toList := by
  unfold addTail
  simp only [nodeChars, toks_tail, charsOf_append, chars_text]
  rfl

theorem titlesOk_addTail {style : QName} {s : String} {n : Node} (h : TitlesOk style false n) : TitlesOk style false (addTail s n) := by
  cases n with
  | elem t a x cs tl =>
    unfold TitlesOk at h
    refine ⟨?_, h.2⟩
    intro h; cases h
  | pi => simp [addTail, Node.setTail, TitlesOk]
  | comment => simp [addTail, Node.setTail, TitlesOk]

theorem putNotes_chars {style : QName} (ks : List Note) (text : Option String) (before : List Node) (hb : TitlesOkList style false before)
    (hk : ∀ k ∈ ks, TitlesOkList style false k.nodes) :
    chars (putNotes text before ks).1 ++ listChars (putNotes text before ks).2 = chars text ++ listChars before ++ ks.flatMap noteChars ∧
      TitlesOkList style false (putNotes text before ks).2 := by
  induction ks generalizing text before with
  | nil => simp [putNotes, hb]
  | cons k ks ih =>
    have h1 : chars (putNote text before k).1 ++ listChars (putNote text before k).2 = chars text ++ listChars before ++ noteChars k ∧
        TitlesOkList style false (putNote text before k).2 := by
      have hkn := titlesOkList_iff.mp (hk k (by simp))
      have hbn := titlesOkList_iff.mp hb
      unfold putNote
      split
      · rename_i he
        refine ⟨by simp [noteChars, he, chars, listChars_append], ?_⟩
        rw [titlesOkList_iff]
        intro n hn
        rcases List.mem_append.mp hn with hn | hn
        · exact hbn n hn
        · exact hkn n hn
      · rename_i s he
        split
        · rename_i hr
          have : before = [] := by simpa using hr
          subst this
          refine ⟨by simp [noteChars, he, chars, chars_safe], hk k (by simp)⟩
        · rename_i p ps hr
          have hp : before = ps.reverse ++ [p] := by simpa using congrArg List.reverse hr
          subst hp
          refine ⟨by simp [noteChars, he, chars, listChars_append, listChars_cons, nodeChars_addTail], ?_⟩
          rw [titlesOkList_iff]
          intro n hn
          simp only [List.mem_append, List.mem_singleton] at hn
          rcases hn with (hn | rfl) | hn
          · exact hbn n (by simp [hn])
          · exact titlesOk_addTail (hbn p (by simp))
          · exact hkn n hn
    obtain ⟨h2, h3⟩ := ih (putNote text before k).1 (putNote text before k).2 h1.2 (fun k' hk' => hk k' (by simp [hk']))
    unfold putNotes
    refine ⟨?_, h3⟩
    rw [h2, h1.1]
    simp

/-- what the extraction keeps of a node -/
theorem extractNode_shape {n : Node} {l : List Node} {ks : List Note} (h : extractNode n = .ok (l, ks)) :
    (l = [] ∧ n.tag? = some (name "ROW")) ∨ ∃ n', l = [n'] ∧ n'.tag? = n.tag? ∧ n'.tail = n.tail ∧
      (n.tag? ≠ some (name "TBL") → n'.text = n.text ∧ ∃ ks', extractList n.children = .ok (n'.children, ks')) := by
  cases n with
  | elem t a x cs tl =>
    unfold extractNode at h
    obtain ⟨⟨cs', notes⟩, h1, h⟩ := bind_ok h
    simp only at h
    split at h
    · rename_i ht
      have ht : t = name "TBL" := ht
      split at h
      · cases h; exact .inr ⟨_, rfl, rfl, rfl, fun h => absurd (by rw [ht]; rfl) h⟩
      · split at h
        · cases h; exact .inr ⟨_, rfl, rfl, rfl, fun h => absurd (by rw [ht]; rfl) h⟩
        · cases h
    · split at h
      · rename_i hrow
        split at h
        · obtain ⟨k, hk, h⟩ := bind_ok h
          cases h; exact .inl ⟨rfl, congrArg some hrow⟩
        · cases h; exact .inr ⟨_, rfl, rfl, rfl, fun _ => ⟨rfl, _, h1⟩⟩
      · cases h; exact .inr ⟨_, rfl, rfl, rfl, fun _ => ⟨rfl, _, h1⟩⟩
  | pi => unfold extractNode at h; cases h; exact .inr ⟨_, rfl, rfl, rfl, fun _ => ⟨rfl, _, rfl⟩⟩
  | comment => unfold extractNode at h; cases h; exact .inr ⟨_, rfl, rfl, rfl, fun _ => ⟨rfl, _, rfl⟩⟩

theorem extractList_append {l l' out : List Node} {ks : List Note} (h : extractList (l ++ l') = .ok (out, ks)) :
    ∃ o1 k1 o2 k2, extractList l = .ok (o1, k1) ∧ extractList l' = .ok (o2, k2) ∧ out = o1 ++ o2 ∧ ks = k1 ++ k2 := by
  induction l generalizing out ks with
  | nil => exact ⟨[], [], out, ks, rfl, h, rfl, rfl⟩
  | cons n l ih =>
    rw [List.cons_append] at h
    unfold extractList at h
    obtain ⟨⟨l1, k1⟩, h1, h⟩ := bind_ok h
    obtain ⟨⟨l2, k2⟩, h2, h⟩ := bind_ok h
    cases h
    obtain ⟨o1, k1', o2, k2', e1, e2, rfl, rfl⟩ := ih h2
    refine ⟨l1 ++ o1, k1 ++ k1', o2, k2', ?_, e2, by simp, by simp⟩
    unfold extractList
    rw [h1]; simp only [ok_bind]; rw [e1]; rfl

/-- every node which remains comes from a node of the same name -/
theorem extractList_mem {ns out : List Node} {ks : List Note} (h : extractList ns = .ok (out, ks)) {d' : Node} (hd : d' ∈ out) :
    ∃ d ∈ ns, ∃ k, extractNode d = .ok ([d'], k) ∧ d'.tag? = d.tag? := by
  induction ns generalizing out ks with
  | nil => unfold extractList at h; cases h; cases hd
  | cons n ns ih =>
    unfold extractList at h
    obtain ⟨⟨l1, k1⟩, h1, h⟩ := bind_ok h
    obtain ⟨⟨l2, k2⟩, h2, h⟩ := bind_ok h
    cases h
    rcases List.mem_append.mp hd with hd | hd
    · rcases extractNode_shape h1 with ⟨rfl, _⟩ | ⟨n', rfl, ht, _⟩
      · cases hd
      · simp only [List.mem_singleton] at hd
        subst hd
        exact ⟨n, by simp, k1, h1, ht⟩
    · obtain ⟨d, hd, k, h3⟩ := ih h2 hd
      exact ⟨d, by simp [hd], k, h3⟩

/-- what the extraction does to a node -/
def ExtractedAs (style : QName) (n : Node) : Prop :=
  ∀ (b b' : Bool) (l : List Node) (ks : List Note), Tidy style b b' n → extractNode n = .ok (l, ks) →
    listChars l = bodyText n ∧ ks.flatMap noteChars = notesText n ∧ TitlesOkList style b l ∧ ∀ k ∈ ks, TitlesOkList style false k.nodes

theorem extractedList {style : QName} {ns : List Node} (hs : ∀ n ∈ ns, ExtractedAs style n) {b b' : Bool} {l : List Node} {ks : List Note}
    (ht : TidyList style b b' ns) (h : extractList ns = .ok (l, ks)) :
    listChars l = bodyTextList ns ∧ ks.flatMap noteChars = notesTextList ns ∧ TitlesOkList style b l ∧ ∀ k ∈ ks, TitlesOkList style false k.nodes := by
  induction ns generalizing l ks with
  | nil => unfold extractList at h; cases h; exact ⟨rfl, rfl, trivial, by simp⟩
  | cons n ns ih =>
    unfold TidyList at ht
    unfold extractList at h
    obtain ⟨⟨l1, k1⟩, h1, h⟩ := bind_ok h
    obtain ⟨⟨l2, k2⟩, h2, h⟩ := bind_ok h
    cases h
    obtain ⟨a1, a2, a3, a4⟩ := hs n (by simp) b b' l1 k1 ht.1 h1
    obtain ⟨b1, b2, b3, b4⟩ := ih (fun m hm => hs m (by simp [hm])) ht.2 h2
    refine ⟨by rw [listChars_append, a1, b1, bodyTextList], by rw [List.flatMap_append, a2, b2, notesTextList], ?_, ?_⟩
    · rw [titlesOkList_iff] at *
      intro m hm
      rcases List.mem_append.mp hm with hm | hm
      · exact a3 m hm
      · exact b3 m hm
    · intro k hk
      rcases List.mem_append.mp hk with hk | hk
      · exact a4 k hk
      · exact b4 k hk

/-- the children of a table, before and after the place of the notes -/
theorem extractedTable {style : QName} {ns : List Node} (hs : ∀ n ∈ ns, ExtractedAs style n) {b b' : Bool} {l : List Node} {ks : List Note}
    (ht : TidyList style b b' ns) (h : extractList ns = .ok (l, ks)) (hc : l.any (isElem "CORPUS") = true) (notes : List Char) :
    listChars (l.takeWhile (fun c => !isElem "CORPUS" c)) ++ notes ++ listChars (l.dropWhile (fun c => !isElem "CORPUS" c)) = tableText notes ns := by
  induction ns generalizing l ks with
  | nil => unfold extractList at h; cases h; simp at hc
  | cons n ns ih =>
    unfold TidyList at ht
    unfold extractList at h
    obtain ⟨⟨l1, k1⟩, h1, h⟩ := bind_ok h
    obtain ⟨⟨l2, k2⟩, h2, h⟩ := bind_ok h
    cases h
    obtain ⟨a1, _⟩ := hs n (by simp) b b' l1 k1 ht.1 h1
    have hs' : ∀ m ∈ ns, ExtractedAs style m := fun m hm => hs m (by simp [hm])
    obtain ⟨b1, _⟩ := extractedList hs' ht.2 h2
    unfold tableText
    rcases extractNode_shape h1 with ⟨rfl, hrow⟩ | ⟨n', rfl, hn', _⟩
    · have hne : n.tag? ≠ some (name "CORPUS") := by rw [hrow]; decide
      rw [if_neg hne, ← a1, ← ih hs' ht.2 h2 (by simpa using hc)]
      rfl
    · by_cases hcor : n.tag? = some (name "CORPUS")
      · have hi : isElem "CORPUS" n' = true := isElem_iff.mpr (by rw [hn', hcor])
        rw [if_pos hcor, ← a1, ← b1]
        simp [hi, listChars_cons]
      · have hi : isElem "CORPUS" n' = false := by
          rw [Bool.eq_false_iff]
          intro he; exact hcor (by rw [← hn', isElem_iff.mp he])
        rw [if_neg hcor, ← a1, ← ih hs' ht.2 h2 (by simpa [hi] using hc)]
        simp [hi, listChars_cons]

theorem tidy_mem {style : QName} {b b' : Bool} {ns : List Node} (h : TidyList style b b' ns) {pre post : List Node} {c : Node}
    (e : ns = pre ++ c :: post) : TidyList style b b' pre ∧ Tidy style b b' c ∧ TidyList style b b' post := by
  rw [tidyList_iff] at *
  subst e
  exact ⟨fun n hn => h n (by simp [hn]), h c (by simp), by rw [tidyList_iff]; exact fun n hn => h n (by simp [hn])⟩

/-- the extraction of the children of a row whose text is in one cell -/
theorem extractedCells {style : QName} {cs : List Node} (hs : ∀ n ∈ cs, ExtractedAs style n) {b b' : Bool} {l : List Node} {ks : List Note}
    (ht : TidyList style b b' cs) (h : extractList cs = .ok (l, ks)) {pre post : List Node} {c : Node} (e : cs = pre ++ c :: post)
    (hc : c.tag? = some (name "CELL")) (hctl : chars c.tail = []) (hpre : ∀ d ∈ pre, NoText d) (hpost : ∀ d ∈ post, NoText d) :
    ∃ pre' c' post', l = pre' ++ c' :: post' ∧ c'.tag? = some (name "CELL") ∧ chars c'.tail = [] ∧ nodeChars c' = bodyText c ∧ bodyTextList cs = bodyText c ∧
      (∀ d' ∈ pre', NoText d' ∧ ∃ d ∈ pre, ∃ k, extractNode d = .ok ([d'], k) ∧ d'.tag? = d.tag?) ∧ (∀ d' ∈ post', NoText d') := by
  obtain ⟨t1, t2, t3⟩ := tidy_mem ht e
  subst e
  obtain ⟨o1, k1, o2, k2, e1, e2, rfl, rfl⟩ := extractList_append h
  unfold extractList at e2
  obtain ⟨⟨l1, m1⟩, h1, e2⟩ := bind_ok e2
  obtain ⟨⟨l2, m2⟩, h2, e2⟩ := bind_ok e2
  cases e2
  obtain ⟨a1, _⟩ := extractedList (fun n hn => hs n (by simp [hn])) t1 e1
  obtain ⟨b1, _⟩ := hs c (by simp) b b' l1 m1 t2 h1
  obtain ⟨c1, _⟩ := extractedList (fun n hn => hs n (by simp [hn])) t3 h2
  have p1 := (noText_bodyList pre (listChars_empty.mpr hpre)).1
  have p2 := (noText_bodyList post (listChars_empty.mpr hpost)).1
  rcases extractNode_shape h1 with ⟨_, hrow⟩ | ⟨c', rfl, hc', htl, _⟩
  · rw [hc] at hrow; exact absurd hrow (by decide)
  · refine ⟨o1, c', l2, by simp, by rw [hc', hc], by rw [htl, hctl], by rw [← b1, listChars_one], ?_, ?_, ?_⟩
    · rw [bodyTextList_append, bodyTextList, p1, p2]; simp
    · intro d' hd'
      exact ⟨listChars_empty.mp (a1.trans p1) d' hd', extractList_mem e1 hd'⟩
    · exact listChars_empty.mp (c1.trans p2)

theorem find_first {p : Node → Bool} {pre post : List Node} {c : Node} (hpre : ∀ d ∈ pre, p d = false) (hc : p c = true) :
    (pre ++ c :: post).find? p = some c := by
  induction pre with
  | nil => simp [hc]
  | cons d pre ih => simp [hpre d (by simp), ih (fun e he => hpre e (by simp [he]))]

theorem nodeChars_addAttrs (e : Dict QName String) (n : Node) : nodeChars (addAttrs e n) = nodeChars n := by
  cases n with
  | elem => unfold addAttrs; rw [nodeChars_elem, nodeChars_elem]
  | pi => rfl
  | comment => rfl

theorem titlesOk_addAttrs {style : QName} (e : Dict QName String) {n : Node} (h : TitlesOk style false n) : TitlesOk style false (addAttrs e n) := by
  cases n with
  | elem t a x cs tl =>
    unfold TitlesOk at h
    exact ⟨(by intro h; cases h), h.2⟩
  | pi => exact h
  | comment => exact h

theorem modifyFirst_chars {style : QName} (p : Node → Bool) (e : Dict QName String) (ns : List Node) :
    listChars (modifyFirst p (addAttrs e) ns) = listChars ns ∧ (TitlesOkList style false ns → TitlesOkList style false (modifyFirst p (addAttrs e) ns)) := by
  induction ns with
  | nil => exact ⟨rfl, id⟩
  | cons n ns ih =>
    unfold modifyFirst
    split
    · exact ⟨by rw [listChars_cons, listChars_cons, nodeChars_addAttrs], fun h => ⟨titlesOk_addAttrs e h.1, h.2⟩⟩
    · exact ⟨by rw [listChars_cons, listChars_cons, ih.1], fun h => ⟨h.1, ih.2 h.2⟩⟩

theorem makeNote_chars {style : QName} {a : Dict QName String} {pre post : List Node} {c : Node} {k : Note}
    (hpre : ∀ d ∈ pre, d.tag? ≠ some (name "CELL")) (hc : c.tag? = some (name "CELL")) (htl : chars c.tail = [])
    (hok : TitlesOkList style false c.children) (h : makeNote a (pre ++ c :: post) = .ok k) :
    noteChars k = nodeChars c ∧ TitlesOkList style false k.nodes := by
  unfold makeNote at h
  rw [find_first (fun d hd => by rw [Bool.eq_false_iff]; exact fun he => hpre d hd (isElem_iff.mp he)) (isElem_iff.mpr hc)] at h
  simp only at h
  have hcc : nodeChars c = chars c.text ++ listChars c.children := by
    cases c with
    | elem t a x cs tl => rw [nodeChars_elem]; simp only [Node.tail] at htl; rw [htl]; simp [Node.text, Node.children]
    | pi => cases hc
    | comment => cases hc
  split at h
  · cases h
    obtain ⟨m1, m2⟩ := modifyFirst_chars (style := style) (isElem "GR.NOTES") a c.children
    refine ⟨?_, m2 hok⟩
    rw [hcc, noteChars]
    simp only [m1, chars, chars_safe]
  · cases h
    refine ⟨?_, ?_, trivial⟩
    · rw [hcc, noteChars]
      simp only [chars, List.nil_append]
      rw [listChars_one, nodeChars_addAttrs, nodeChars_elem]
      simp [chars, chars_safe]
    · refine titlesOk_addAttrs _ ⟨(by intro h; cases h), ?_⟩
      have : decide (f "GR.NOTES" = name "CORPUS") = false := by decide
      rw [this]; exact hok

theorem get?_erase_ne {d : Dict QName String} {k k' : QName} (h : k ≠ k') : Dict.get? (Dict.erase d k) k' = Dict.get? d k' := by
  induction d with
  | nil => rfl
  | cons p d ih =>
    obtain ⟨q, v⟩ := p
    unfold Dict.erase at ih ⊢
    by_cases hq : q = k
    · subst hq
      simp only [List.filter_cons]
      simp [Dict.get?_cons, h]
      simpa using ih
    · simp only [List.filter_cons]
      simp [Dict.get?_cons, hq]
      simp at ih
      rw [ih]

/-- a cell without text which is not filled remains so -/
theorem extract_notFilled {d d' : Node} {k : List Note} (hd : d.tag? = some (name "CELL")) (h : extractNode d = .ok ([d'], k)) (hn : NoText d')
    (hf : ¬ Filled d) : ¬ Filled d' := by
  rcases extractNode_shape h with ⟨h1, _⟩ | ⟨n', h1, ht, htl, hx⟩
  · cases h1
  · cases h1
    obtain ⟨_, ks', hcs⟩ := hx (by rw [hd]; decide)
    rintro (hi | ⟨c, hc, hci⟩)
    · cases d' with
      | elem t a x cs tl =>
        refine hi (innerText_chars.mpr ?_)
        have hn : nodeChars (.elem t a x cs tl) = [] := hn
        rw [nodeChars_elem, List.append_eq_nil_iff] at hn
        exact hn.1
      | pi => exact hi rfl
      | comment => exact hi rfl
    · obtain ⟨e, he, k, _, hte⟩ := extractList_mem hcs hc
      exact hf (.inr ⟨e, he, by rw [← hte, hci]⟩)

mutual
theorem extractedAs (style : QName) (hst : style ≠ name "TYPE") (n : Node) : ExtractedAs style n := by
  cases n with
  | elem t a x cs tl =>
    intro b b' l ks hty h
    have hs := extractedAsList style hst cs
    unfold extractNode at h
    obtain ⟨⟨cs', notes⟩, h1, h⟩ := bind_ok h
    unfold Tidy at hty
    obtain ⟨hT, hF, hR, hcs⟩ := hty
    obtain ⟨i1, i2, i3, i4⟩ := extractedList hs hcs h1
    simp only at h
    unfold bodyText notesText
    split at h
    · rename_i htbl
      have htbl : t = name "TBL" := htbl
      have hnf : ¬ IsFooter t a := by rintro ⟨e, _⟩; rw [htbl] at e; revert e; decide
      have hcor : decide (t = name "CORPUS") = false := by rw [htbl]; decide
      have hself : ∀ x' cs'', TitlesOkList style false cs'' → TitlesOkList style b [Node.elem t a x' cs'' tl] := by
        intro x' cs'' hc
        refine ⟨⟨?_, by rw [hcor]; exact hc⟩, trivial⟩
        intro hb hsty
        have := (hR hb hnf hsty).1
        rw [htbl] at this
        exact absurd this (by decide)
      rw [hcor] at i3
      rw [if_neg hnf, if_pos htbl, if_pos htbl]
      split at h
      · rename_i hn
        have hn : notes = [] := by simpa using hn
        subst hn
        cases h
        rw [← i2]
        refine ⟨?_, rfl, hself _ _ i3, by simp⟩
        rw [listChars_one, nodeChars_elem, i1]
        simp [tableText_nil]
      · split at h
        · rename_i hc
          cases h
          obtain ⟨p1, p2⟩ := putNotes_chars (style := style) notes x (cs'.takeWhile (fun c => !isElem "CORPUS" c))
            (by rw [titlesOkList_iff] at *; exact fun n hn => i3 n (List.takeWhile_subset _ hn)) i4
          refine ⟨?_, rfl, hself _ _ ?_, by simp⟩
          · rw [listChars_one, nodeChars_elem, listChars_append, ← List.append_assoc, p1, ← extractedTable hs hcs h1 hc, i2]
            simp
          · rw [titlesOkList_iff] at *
            intro n hn
            rcases List.mem_append.mp hn with hn | hn
            · exact p2 n hn
            · exact i3 n (List.dropWhile_subset _ hn)
        · cases h
    · rename_i htbl
      have htbl : ¬ t = name "TBL" := htbl
      rw [if_neg htbl, if_neg htbl]
      split at h
      · rename_i hrow
        have hrow : t = name "ROW" := hrow
        have hcor : decide (t = name "CORPUS") = false := by rw [hrow]; decide
        rw [hcor] at hcs i3
        split at h
        · rename_i hgr
          have hf : IsFooter t a := ⟨hrow, hgr⟩
          obtain ⟨k, hk, h⟩ := bind_ok h
          cases h
          rw [if_pos hf, if_pos hf]
          obtain ⟨_, _, pre, c, post, e, hc, hctl, hpre, hpost⟩ := hF hf
          obtain ⟨pre', c', post', rfl, q1, q2, q3, q4, q5, q6⟩ := extractedCells hs hcs h1 e hc hctl (fun d hd => (hpre d hd).1) hpost
          have hok : TitlesOkList style false c'.children := by
            have := titlesOkList_iff.mp i3 c' (by simp)
            cases c' with
            | elem t' a' x' cs' tl' =>
              unfold TitlesOk at this
              injection q1 with q1
              have h2 := this.2
              rw [q1, show decide (name "CELL" = name "CORPUS") = false by decide] at h2
              exact h2
            | pi => trivial
            | comment => trivial
          obtain ⟨m1, m2⟩ := makeNote_chars (style := style) (fun d hd => by
            obtain ⟨_, d0, hd0, _, _, e⟩ := q5 d hd
            rw [e]; exact (hpre d0 hd0).2) q1 q2 hok hk
          refine ⟨rfl, ?_, trivial, ?_⟩
          · rw [List.flatMap_cons, m1, q3, i2, q4]
          · intro k' hk'
            rcases List.mem_cons.mp hk' with rfl | hk'
            · exact m2
            · exact i4 k' hk'
        · rename_i hgr
          have hf : ¬ IsFooter t a := fun h => hgr h.2
          cases h
          rw [if_neg hf, if_neg hf]
          refine ⟨by rw [listChars_one, nodeChars_elem, i1], by simp [i2], ⟨⟨?_, by rw [hcor]; exact i3⟩, trivial⟩, i4⟩
          intro hb hsty
          rw [get?_erase_ne (show f "TYPE" ≠ style from fun e => hst e.symm)] at hsty
          obtain ⟨_, r1, r2, pre, c, post, e, hc, hctl, hpre, hpost⟩ := hR hb hf hsty
          obtain ⟨pre', c', post', rfl, q1, q2, q3, q4, q5, q6⟩ := extractedCells hs hcs h1 e hc hctl (fun d hd => (hpre d hd).1) hpost
          refine ⟨hrow, r1, r2, pre', c', post', rfl, q1, q2, ?_, q6⟩
          intro d' hd'
          obtain ⟨s1, d, hd, k, hk, s2⟩ := q5 d' hd'
          exact ⟨s1, fun hcell => extract_notFilled (by rw [← s2]; exact hcell) hk s1 ((hpre d hd).2 (by rw [← s2]; exact hcell))⟩
      · rename_i hrow
        have hf : ¬ IsFooter t a := fun h => hrow h.1
        cases h
        rw [if_neg hf, if_neg hf]
        refine ⟨by rw [listChars_one, nodeChars_elem, i1], by simp [i2], ⟨⟨?_, i3⟩, trivial⟩, i4⟩
        intro hb hsty
        exact absurd (hR hb hf hsty).1 hrow
  | pi t d tl =>
    intro b b' l ks _ h
    unfold extractNode at h
    cases h
    exact ⟨by rw [listChars_one, nodeChars_pi, bodyText], by simp [notesText], by simp [TitlesOkList, TitlesOk], by simp⟩
  | comment d tl =>
    intro b b' l ks _ h
    unfold extractNode at h
    cases h
    exact ⟨by rw [listChars_one, nodeChars_comment, bodyText], by simp [notesText], by simp [TitlesOkList, TitlesOk], by simp⟩
theorem extractedAsList (style : QName) (hst : style ≠ name "TYPE") (ns : List Node) : ∀ n ∈ ns, ExtractedAs style n := by
  cases ns with
  | nil => intro n hn; cases hn
  | cons m ns =>
    intro n hn
    rcases List.mem_cons.mp hn with h | h
    · rw [h]; exact extractedAs style hst m
    · exact extractedAsList style hst ns n h
end

/-! ### nothing is lost by the reading -/

theorem tableText_perm (notes : List Char) (ns : List Node) (h : ∃ n ∈ ns, n.tag? = some (name "CORPUS")) :
    (tableText notes ns).Perm (bodyTextList ns ++ notes) := by
  induction ns with
  | nil => obtain ⟨n, hn, _⟩ := h; cases hn
  | cons n ns ih =>
    unfold tableText
    split
    · simp only [bodyTextList, List.append_assoc]
      exact List.perm_append_comm.trans (by simp)
    · rename_i hn
      obtain ⟨m, hm, hc⟩ := h
      rcases List.mem_cons.mp hm with rfl | hm
      · exact absurd hc hn
      · simp only [bodyTextList, List.append_assoc]
        exact (ih ⟨m, hm, hc⟩).append_left _

mutual
theorem body_perm (style : QName) (b b' : Bool) (n : Node) (ht : Tidy style b b' n) (l : List Node) (ks : List Note)
    (h : extractNode n = .ok (l, ks)) : (bodyText n ++ notesText n).Perm (nodeChars n) := by
  cases n with
  | elem t a x cs tl =>
    unfold Tidy at ht
    obtain ⟨hT, hF, hR, hcs⟩ := ht
    unfold extractNode at h
    obtain ⟨⟨cs', notes⟩, h1, h⟩ := bind_ok h
    have ih := body_permList style _ _ cs hcs cs' notes h1
    have i2 : notes = [] → notesTextList cs = [] := by
      rintro rfl
      exact extract_noNotes cs cs' h1
    rw [nodeChars_elem]
    unfold bodyText notesText
    simp only at h
    split at h
    · rename_i htbl
      have htbl : t = name "TBL" := htbl
      have hnf : ¬ IsFooter t a := by rintro ⟨e, _⟩; rw [htbl] at e; revert e; decide
      rw [if_neg hnf, if_pos htbl, if_pos htbl, List.append_nil]
      refine (List.Perm.append_left _ ?_).append_right _
      refine List.Perm.trans ?_ ih
      split at h
      · rename_i hn
        rw [i2 (by simpa using hn), tableText_nil]; simp
      · split at h
        · rename_i hc
          rw [List.any_eq_true] at hc
          obtain ⟨d', hd', hcor⟩ := hc
          obtain ⟨d, hd, _, _, e⟩ := extractList_mem h1 hd'
          exact tableText_perm _ _ ⟨d, hd, by rw [← e, isElem_iff.mp hcor]⟩
        · cases h
    · rename_i htbl
      have htbl : ¬ t = name "TBL" := htbl
      rw [if_neg htbl, if_neg htbl]
      by_cases hf : IsFooter t a
      · rw [if_pos hf, if_pos hf]
        obtain ⟨e1, e2, _⟩ := hF hf
        simp only [Node.text, Node.tail] at e1 e2
        rw [e1, e2]; simpa using ih
      · rw [if_neg hf, if_neg hf]
        simp only [List.nil_append, List.append_assoc]
        refine List.Perm.append_left _ ?_
        refine List.Perm.trans ?_ (ih.append_right _)
        rw [List.append_assoc]
        exact List.Perm.append_left _ List.perm_append_comm
  | pi => rw [nodeChars_pi]; simp [bodyText, notesText]
  | comment => rw [nodeChars_comment]; simp [bodyText, notesText]
theorem body_permList (style : QName) (b b' : Bool) (ns : List Node) (ht : TidyList style b b' ns) (l : List Node) (ks : List Note)
    (h : extractList ns = .ok (l, ks)) : (bodyTextList ns ++ notesTextList ns).Perm (listChars ns) := by
  cases ns with
  | nil => exact .refl _
  | cons n ns =>
    unfold TidyList at ht
    unfold extractList at h
    obtain ⟨⟨l1, k1⟩, h1, h⟩ := bind_ok h
    obtain ⟨⟨l2, k2⟩, h2, h⟩ := bind_ok h
    have i1 := body_perm style b b' n ht.1 l1 k1 h1
    have i2 := body_permList style b b' ns ht.2 l2 k2 h2
    rw [listChars_cons]
    unfold bodyTextList notesTextList
    refine List.Perm.trans ?_ (i1.append i2)
    simp only [List.append_assoc]
    refine List.Perm.append_left _ ?_
    rw [← List.append_assoc, ← List.append_assoc (notesText n)]
    exact List.perm_append_comm.append_right _
theorem extract_noNotesNode (n : Node) (l : List Node) (h : extractNode n = .ok (l, [])) : notesText n = [] := by
  cases n with
  | elem t a x cs tl =>
    unfold extractNode at h
    obtain ⟨⟨cs', notes⟩, h1, h⟩ := bind_ok h
    unfold notesText
    simp only at h
    split at h
    · rename_i htbl
      rw [if_pos (show t = name "TBL" from htbl)]
    · rename_i htbl
      rw [if_neg (show ¬ t = name "TBL" from htbl)]
      split at h
      · rename_i hrow
        split at h
        · obtain ⟨k, hk, h⟩ := bind_ok h
          cases h
        · rename_i hgr
          have hf : ¬ IsFooter t a := fun h => hgr h.2
          cases h
          rw [if_neg hf, extract_noNotes cs cs' h1]; rfl
      · rename_i hrow
        have hf : ¬ IsFooter t a := fun h => hrow h.1
        cases h
        rw [if_neg hf, extract_noNotes cs cs' h1]; rfl
  | pi => simp [notesText]
  | comment => simp [notesText]
theorem extract_noNotes (ns : List Node) (l : List Node) (h : extractList ns = .ok (l, [])) : notesTextList ns = [] := by
  cases ns with
  | nil => rfl
  | cons n ns =>
    unfold extractList at h
    obtain ⟨⟨l1, k1⟩, h1, h⟩ := bind_ok h
    obtain ⟨⟨l2, k2⟩, h2, h⟩ := bind_ok h
    have h := Except.ok.inj h
    injection h with e1 e2
    simp only [List.append_eq_nil_iff] at e2
    obtain ⟨rfl, rfl⟩ := e2
    unfold notesTextList
    rw [extract_noNotesNode n l1 h1, extract_noNotes ns l2 h2]; rfl
end

/-! ### blocks -/

/-- the text of the open blocks -/
def openChars : Open → List Char
  | [] => []
  | cs :: rest => openChars rest ++ listChars cs

theorem openChars_push (k : Nat) (o : Open) : openChars (o.push k) = openChars o := by
  induction k generalizing o with
  | zero => rfl
  | succ k ih => unfold Open.push; rw [ih]; simp [openChars]

theorem openChars_close (o : Open) : openChars o.close = openChars o := by
  unfold Open.close
  split
  · simp [openChars, listChars_append, listChars_one, blkElem, nodeChars_elem, chars]
  · rfl

theorem openChars_pop (k : Nat) (o : Open) : openChars (o.pop k) = openChars o := by
  induction k generalizing o with
  | zero => rfl
  | succ k ih => unfold Open.pop; rw [ih, openChars_close]

theorem openChars_toLevel (k : Nat) (o : Open) : openChars (o.toLevel k) = openChars o := by
  unfold Open.toLevel
  split
  · exact openChars_push _ o
  · exact openChars_pop _ o

theorem openChars_add (n : Node) (o : Open) (h : 1 ≤ o.length) : openChars (o.add n) = openChars o ++ nodeChars n := by
  cases o with
  | nil => simp at h
  | cons cs rest => simp [Open.add, openChars, listChars_append, listChars_one]

theorem nodeChars_typedRow (type : Option String) (n : Node) : nodeChars (typedRow type n) = nodeChars n := by
  unfold typedRow
  split
  · rename_i ty t a x cs tl
    rw [nodeChars_elem, nodeChars_elem]
    congr 2
    induction cs with
    | nil => rfl
    | cons c cs ih =>
      rw [List.map_cons, listChars_cons, listChars_cons, ih]
      congr 1
      split
      · cases c with
        | elem => unfold setAttr; rw [nodeChars_elem, nodeChars_elem]
        | pi => rfl
        | comment => rfl
      · rfl
  · rfl

theorem insertBlk_outside {cfg : Config} {n out : Node} (h : insertBlk cfg n = .ok out) : out.text = n.text ∧ out.tail = n.tail := by
  cases n with
  | elem t a x cs tl =>
    unfold insertBlk at h
    obtain ⟨cs', h1, h⟩ := bind_ok h
    split at h
    · obtain ⟨g, _, h⟩ := bind_ok h
      cases h; exact ⟨rfl, rfl⟩
    · cases h; exact ⟨rfl, rfl⟩
  | pi => unfold insertBlk at h; cases h; exact ⟨rfl, rfl⟩
  | comment => unfold insertBlk at h; cases h; exact ⟨rfl, rfl⟩

theorem nodeChars_parts (n : Node) : nodeChars n = chars n.text ++ listChars n.children ++ chars n.tail := by
  cases n with
  | elem => exact nodeChars_elem ..
  | pi => rw [nodeChars_pi]; rfl
  | comment => rw [nodeChars_comment]; rfl

theorem cells_append (l l' : List Node) :
    (l ++ l').filter (fun c => c.tag? = some (name "CELL")) = l.filter (fun c => c.tag? = some (name "CELL")) ++ l'.filter (fun c => c.tag? = some (name "CELL")) :=
  List.filter_append ..

/-- the nodes of a row and those of the row where what is inside is grouped correspond -/
structure SameNode (c d : Node) : Prop where
  tag : d.tag? = c.tag?
  text : d.text = c.text
  tail : d.tail = c.tail
  chars : nodeChars d = nodeChars c

theorem sameCells {cs ds : List Node} (h : All₂ SameNode cs ds) :
    All₂ SameNode (cs.filter (fun c => c.tag? = some (name "CELL"))) (ds.filter (fun c => c.tag? = some (name "CELL"))) := by
  induction h with
  | nil => exact .nil
  | @cons c d cs ds h _ ih =>
    rw [List.filter_cons, List.filter_cons]
    by_cases hc : c.tag? = some (name "CELL")
    · have hd : d.tag? = some (name "CELL") := by rw [h.tag, hc]
      simp only [hc, hd, decide_true, if_true]
      exact .cons h ih
    · have hd : ¬ d.tag? = some (name "CELL") := by rw [h.tag]; exact hc
      simp only [hc, hd, decide_false, Bool.false_eq_true, if_false]
      exact ih

theorem all₂_get {R : Node → Node → Prop} {l m : List Node} (h : All₂ R l m) {i : Nat} {d : Node} (hd : m[i]? = some d) :
    ∃ c, l[i]? = some c ∧ R c d := by
  induction h generalizing i with
  | nil => simp at hd
  | @cons a b l m h1 _ ih =>
    cases i with
    | zero => simp at hd; subst hd; exact ⟨a, rfl, h1⟩
    | succ i => simp at hd; simpa using ih hd

theorem filled_of_text {n : Node} (h : chars n.text ++ listChars n.children ≠ []) : Filled n := by
  cases n with
  | elem t a x cs tl => exact .inl (fun e => h (innerText_chars.mp e))
  | pi => exact absurd rfl h
  | comment => exact absurd rfl h

/-- a title keeps the text of the row -/
theorem title_chars {ns : Option String} {tag : String} {raw row n : Node} (ht : TitleTidy raw) (hall : All₂ SameNode raw.children row.children) (h : TitleOf ns tag raw row n) :
    nodeChars n = nodeChars raw := by
  obtain ⟨h1, h2, pre, c, post, e, hc, hctl, hpre, hpost⟩ := ht
  obtain ⟨_, htl, i, cell, _, _, hcell, e1, e2, hwhich, _⟩ := h
  have hrest : nodeChars raw = chars c.text ++ listChars c.children := by
    rw [nodeChars_parts raw, h1, h2, e, listChars_append, listChars_cons, listChars_empty.mpr (fun d hd => (hpre d hd).1), listChars_empty.mpr hpost,
      nodeChars_parts c, hctl]
    simp
  have hn : nodeChars n = chars cell.text ++ listChars cell.children := by rw [nodeChars_parts n, htl, e1, e2]; simp [chars]
  have hcells : cells raw = pre.filter (fun c => c.tag? = some (name "CELL")) ++ c :: post.filter (fun c => c.tag? = some (name "CELL")) := by
    unfold cells
    rw [e, cells_append, List.filter_cons]
    simp [hc]
  obtain ⟨c0, hc0, hsame⟩ := all₂_get (sameCells hall) hcell
  have hc0 : (cells raw)[i]? = some c0 := hc0
  have hsub : nodeChars raw = [] → nodeChars n = [] := by
    intro h0
    have hm : c0 ∈ raw.children := (List.mem_filter.mp (List.mem_of_getElem? hc0)).1
    rw [nodeChars_parts raw, List.append_eq_nil_iff, List.append_eq_nil_iff] at h0
    have : nodeChars c0 = [] := listChars_empty.mp h0.1.2 c0 hm
    rw [← hsame.chars, nodeChars_parts cell, List.append_eq_nil_iff] at this
    rw [hn]; exact this.1
  by_cases hempty : chars c.text ++ listChars c.children = []
  · rw [hrest, hempty]; exact hsub (by rw [hrest, hempty])
  · have hfc := filled_of_text hempty
    have hk : (cells raw)[(pre.filter (fun c => c.tag? = some (name "CELL"))).length]? = some c := by rw [hcells]; simp
    rcases hwhich with ⟨d, hd, hfd, hbefore, _⟩ | ⟨_, hnone, _⟩
    · have hi : i = (pre.filter (fun c => c.tag? = some (name "CELL"))).length := by
        rcases Nat.lt_trichotomy i (pre.filter (fun c => c.tag? = some (name "CELL"))).length with h | h | h
        · exfalso
          rw [hcells, List.getElem?_append_left h] at hd
          have hm := List.mem_filter.mp (List.mem_of_getElem? hd)
          exact (hpre d hm.1).2 (by simpa using hm.2) hfd
        · exact h
        · exact absurd hfc (hbefore _ c h hk)
      rw [hi, hk] at hc0
      cases hc0
      have h3 := hsame.chars
      rw [nodeChars_parts cell, nodeChars_parts c, hsame.tail, hctl, List.append_nil, List.append_nil] at h3
      rw [hn, hrest, h3]
    · exact absurd hfc (hnone c (List.mem_of_getElem? hk))

theorem titleStyle_of {s : Option String} (h : (guessRowInfo s).tag ≠ "ROW") : TitleStyle s := by
  refine Classical.byContradiction fun hn => h ?_
  by_cases hx : ∃ t tag type level, s = some t ∧ IsRowStyle t tag type level
  · obtain ⟨t, tag, type, level, rfl, hr⟩ := hx
    by_cases htag : tag = "ROW"
    · rw [C49_grammar _ _ _ _ hr]; exact htag
    · exact absurd ⟨t, tag, type, level, rfl, hr, htag⟩ hn
  · rw [C49_outside s (fun t tag type level e hr => hx ⟨t, tag, type, level, e, hr⟩)]

theorem all₂_same {R : Node → Node → Prop} {S : Node → Node → Prop} {l m : List Node} (h : All₂ R l m) (hs : ∀ c ∈ l, ∀ d, R c d → S c d) : All₂ S l m :=
  h.imp_mem hs

/-- what the grouping does to a node -/
def GroupedAs (cfg : Config) (n : Node) : Prop :=
  ∀ (b : Bool) (out : Node), TitlesOk (cfg.q "rowstyle") b n → insertBlk cfg n = .ok out → nodeChars out = nodeChars n

theorem sameNode_of {cfg : Config} {n out : Node} {b : Bool} (hg : GroupedAs cfg n) (ht : TitlesOk (cfg.q "rowstyle") b n)
    (h : insertBlk cfg n = .ok out) : SameNode n out :=
  ⟨(insertBlk_tag h).1, (insertBlk_outside h).1, (insertBlk_outside h).2, hg b out ht h⟩

theorem placed_chars {cfg : Config} {raw row n : Node} (hg : GroupedAs cfg raw) (hgc : ∀ c ∈ raw.children, GroupedAs cfg c)
    (ht : TitlesOk (cfg.q "rowstyle") true raw) (hi : insertBlk cfg raw = .ok row) (h : placedNode cfg raw row = .ok n) :
    nodeChars n = nodeChars raw := by
  unfold placedNode at h
  split at h
  · cases h; rw [nodeChars_typedRow]; exact hg _ _ ht hi
  · rename_i hr
    have hsty := titleStyle_of hr
    cases raw with
    | elem t a x cs tl =>
      unfold TitlesOk at ht
      obtain ⟨hrow, htidy⟩ := ht.1 rfl hsty
      obtain ⟨cs', e, hall⟩ := C50_elsewhere cfg t a x cs tl row (by rw [hrow]; decide) hi
      subst e
      refine title_chars htidy (hall.imp_mem ?_) (titleElem_of h)
      intro c hc d hd
      exact sameNode_of (hgc c hc) (titlesOkList_iff.mp ht.2 c hc) hd
    | pi => obtain ⟨_, _, _, _, e, _⟩ := hsty; cases e
    | comment => obtain ⟨_, _, _, _, e, _⟩ := hsty; cases e

theorem pop_length (k : Nat) (o : Open) (h : k + 1 ≤ o.length) : (o.pop k).length + k = o.length := (flatOpen_pop k o h).2

theorem groupRows_chars {cfg : Config} {cs cs' : List Node} (hall : All₂ (fun c d => insertBlk cfg c = .ok d) cs cs')
    (hg : ∀ c ∈ cs, GroupedAs cfg c ∧ ∀ d ∈ c.children, GroupedAs cfg d) (ht : TitlesOkList (cfg.q "rowstyle") true cs) (o o' : Open)
    (ho : 1 ≤ o.length) (h : groupRows cfg o (cs.zip cs') = .ok o') : 1 ≤ o'.length ∧ openChars o' = openChars o ++ listChars cs := by
  induction hall generalizing o with
  | nil => cases h; exact ⟨ho, by simp⟩
  | @cons c d cs cs' hcd _ ih =>
    unfold TitlesOkList at ht
    rw [List.zip_cons_cons] at h
    unfold groupRows at h
    obtain ⟨g1, g2⟩ := hg c (by simp)
    split at h
    · obtain ⟨r1, r2⟩ := ih (fun e he => hg e (by simp [he])) ht.2 (o.add d) (by rw [(flatOpen_add d o ho).2]; exact ho) h
      refine ⟨r1, ?_⟩
      rw [r2, openChars_add d o ho, listChars_cons, g1 true d ht.1 hcd]; simp
    · obtain ⟨n, hn, h⟩ := bind_ok h
      have hl : 1 ≤ (o.toLevel (infoOf cfg c).level).length := by rw [(flatOpen_toLevel _ o).2]; omega
      obtain ⟨r1, r2⟩ := ih (fun e he => hg e (by simp [he])) ht.2 _ (by rw [(flatOpen_add n _ hl).2]; exact hl) h
      refine ⟨r1, ?_⟩
      rw [r2, openChars_add n _ hl, openChars_toLevel, listChars_cons, placed_chars g1 g2 ht.1 hcd hn]; simp

theorem groupChildren_chars {cfg : Config} {cs cs' g : List Node} (hall : All₂ (fun c d => insertBlk cfg c = .ok d) cs cs')
    (hg : ∀ c ∈ cs, GroupedAs cfg c ∧ ∀ d ∈ c.children, GroupedAs cfg d) (ht : TitlesOkList (cfg.q "rowstyle") true cs)
    (h : groupChildren cfg (cs.zip cs') = .ok g) : listChars g = listChars cs := by
  unfold groupChildren at h
  obtain ⟨o, ho, h⟩ := bind_ok h
  obtain ⟨h1, h2⟩ := groupRows_chars hall hg ht [[]] o (by simp) ho
  have h3 := openChars_pop (o.length - 1) o
  have h4 := pop_length (o.length - 1) o (by omega)
  have hl : (o.pop (o.length - 1)).length = 1 := by omega
  generalize o.pop (o.length - 1) = r at *
  match r, hl with
  | [gs], _ =>
    cases h
    rw [h2] at h3
    simpa [openChars] using h3

mutual
theorem groupedAs (cfg : Config) (n : Node) : GroupedAs cfg n ∧ ∀ c ∈ n.children, GroupedAs cfg c := by
  cases n with
  | elem t a x cs tl =>
    have ih := groupedAsList cfg cs
    refine ⟨?_, fun c hc => (ih c hc).1⟩
    intro b out ht h
    unfold TitlesOk at ht
    unfold insertBlk at h
    obtain ⟨cs', h1, h⟩ := bind_ok h
    have hall := insertBlkList_ok h1
    split at h
    · rename_i hc
      obtain ⟨g, hg, h⟩ := bind_ok h
      cases h
      have h2 := ht.2
      rw [show decide (t = name "CORPUS") = true from decide_eq_true hc] at h2
      rw [nodeChars_elem, nodeChars_elem, groupChildren_chars hall ih h2 hg]
    · cases h
      rw [nodeChars_elem, nodeChars_elem]
      congr 2
      have h2 := titlesOkList_iff.mp ht.2
      clear h h1 ht
      induction hall with
      | nil => rfl
      | @cons c d cs ds hcd _ ihh =>
        rw [listChars_cons, listChars_cons, (ih c (by simp)).1 _ d (h2 c (by simp)) hcd,
          ihh (fun e he => ih e (by simp [he])) (fun e he => h2 e (by simp [he]))]
  | pi => exact ⟨fun b out _ h => by unfold insertBlk at h; cases h; rfl, by intro c hc; cases hc⟩
  | comment => exact ⟨fun b out _ h => by unfold insertBlk at h; cases h; rfl, by intro c hc; cases hc⟩
theorem groupedAsList (cfg : Config) (ns : List Node) : ∀ n ∈ ns, GroupedAs cfg n ∧ ∀ c ∈ n.children, GroupedAs cfg c := by
  cases ns with
  | nil => intro n hn; cases hn
  | cons m ns =>
    intro n hn
    rcases List.mem_cons.mp hn with h | h
    · rw [h]; exact groupedAs cfg m
    · exact groupedAsList cfg ns n h
end

/-! ### attributes -/

mutual
theorem nodeChars_drop (cfg : Config) (b : Bool) (n : Node) : nodeChars (dropNode cfg b n) = nodeChars n := by
  cases n with
  | elem t a x cs tl => unfold dropNode; rw [nodeChars_elem, nodeChars_elem, listChars_drop cfg _ cs]
  | pi => rfl
  | comment => rfl
theorem listChars_drop (cfg : Config) (b : Bool) (ns : List Node) : listChars (dropList cfg b ns) = listChars ns := by
  cases ns with
  | nil => rfl
  | cons n ns => unfold dropList; rw [listChars_cons, listChars_cons, nodeChars_drop cfg b n, listChars_drop cfg b ns]
end

/-! ### numbers -/

theorem withoutNumbersList_eq (ns : List Node) : withoutNumbersList ns = ns.map withoutNumbers := by
  induction ns with
  | nil => rfl
  | cons n ns ih => simp [withoutNumbersList, ih]

theorem withoutNumbers_outside (n : Node) : (withoutNumbers n).tag? = n.tag? ∧ (withoutNumbers n).text = n.text ∧ (withoutNumbers n).tail = n.tail ∧
    (withoutNumbers n).children = n.children.map withoutNumbers := by
  cases n with
  | elem t a x cs tl => exact ⟨rfl, rfl, rfl, withoutNumbersList_eq cs⟩
  | pi => exact ⟨rfl, rfl, rfl, rfl⟩
  | comment => exact ⟨rfl, rfl, rfl, rfl⟩

mutual
theorem nodeChars_without (n : Node) : nodeChars (withoutNumbers n) = nodeChars n := by
  cases n with
  | elem t a x cs tl => unfold withoutNumbers; rw [nodeChars_elem, nodeChars_elem, listChars_without cs]
  | pi => rfl
  | comment => rfl
theorem listChars_without (ns : List Node) : listChars (withoutNumbersList ns) = listChars ns := by
  cases ns with
  | nil => rfl
  | cons n ns => unfold withoutNumbersList; rw [listChars_cons, listChars_cons, nodeChars_without n, listChars_without ns]
end

theorem isFooter_without (t : QName) (a : Dict QName String) :
    IsFooter t (if t = name "TBL" then a.filter (fun p => p.1 ≠ name "NO.SEQ") else a) ↔ IsFooter t a := by
  by_cases h : t = name "TBL"
  · have : ∀ b, ¬ IsFooter t b := by rintro b ⟨e, _⟩; rw [h] at e; revert e; decide
    exact ⟨fun h => absurd h (this _), fun h => absurd h (this _)⟩
  · rw [if_neg h]

mutual
theorem body_without (n : Node) : bodyText (withoutNumbers n) = bodyText n ∧ notesText (withoutNumbers n) = notesText n := by
  cases n with
  | elem t a x cs tl =>
    obtain ⟨h1, h2, h3⟩ := body_withoutList cs
    have hf := isFooter_without t a
    unfold withoutNumbers bodyText notesText
    simp only [hf, h1, h2, h3, and_self]
  | pi => exact ⟨rfl, rfl⟩
  | comment => exact ⟨rfl, rfl⟩
theorem body_withoutList (ns : List Node) : bodyTextList (withoutNumbersList ns) = bodyTextList ns ∧ notesTextList (withoutNumbersList ns) = notesTextList ns ∧
    ∀ notes, tableText notes (withoutNumbersList ns) = tableText notes ns := by
  cases ns with
  | nil => exact ⟨rfl, rfl, fun _ => rfl⟩
  | cons n ns =>
    obtain ⟨h1, h2⟩ := body_without n
    obtain ⟨h3, h4, h5⟩ := body_withoutList ns
    refine ⟨by rw [withoutNumbersList, bodyTextList, h1, h3, bodyTextList], by rw [withoutNumbersList, notesTextList, h2, h4, notesTextList], ?_⟩
    intro notes
    rw [withoutNumbersList, tableText, (withoutNumbers_outside n).1, h1, h3, h5, tableText]
end

theorem filled_without (n : Node) : Filled (withoutNumbers n) ↔ Filled n := by
  unfold Filled
  have h1 : (withoutNumbers n).innerText = "" ↔ n.innerText = "" := by
    cases n with
    | elem t a x cs tl =>
      unfold withoutNumbers
      rw [innerText_chars, innerText_chars, listChars_without]
    | pi => exact .rfl
    | comment => exact .rfl
  rw [(withoutNumbers_outside n).2.2.2]
  simp only [ne_eq, h1, List.mem_map]
  refine or_congr_right ⟨?_, ?_⟩
  · rintro ⟨c, ⟨d, hd, rfl⟩, hc⟩
    exact ⟨d, hd, by rw [← hc]; exact (withoutNumbers_outside d).1.symm⟩
  · rintro ⟨c, hc, h⟩
    exact ⟨_, ⟨c, hc, rfl⟩, by rw [(withoutNumbers_outside c).1, h]⟩

theorem noText_without (n : Node) : NoText (withoutNumbers n) ↔ NoText n := by
  show nodeChars (withoutNumbers n) = [] ↔ nodeChars n = []
  rw [nodeChars_without]

theorem textInCell_without {P : Node → Prop} (hP : ∀ n, P (withoutNumbers n) ↔ P n) (row : Node) :
    TextInCell P (withoutNumbers row) ↔ TextInCell P row := by
  unfold TextInCell
  obtain ⟨_, h2, h3, h4⟩ := withoutNumbers_outside row
  rw [h2, h3, h4]
  refine and_congr_right fun _ => and_congr_right fun _ => ⟨?_, ?_⟩
  · rintro ⟨pre, c, post, e, g1, g2, g3, g4⟩
    obtain ⟨pre', rest, e1, rfl, e2⟩ := List.map_eq_append_iff.mp e
    obtain ⟨c', post', rfl, rfl, rfl⟩ := List.map_eq_cons_iff.mp e2
    refine ⟨pre', c', post', e1, by rw [← (withoutNumbers_outside c').1, g1], by rw [← (withoutNumbers_outside c').2.2.1, g2], ?_, ?_⟩
    · intro d hd
      have := g3 (withoutNumbers d) (List.mem_map.mpr ⟨d, hd, rfl⟩)
      exact ⟨(noText_without d).mp this.1, (hP d).mp this.2⟩
    · intro d hd
      exact (noText_without d).mp (g4 (withoutNumbers d) (List.mem_map.mpr ⟨d, hd, rfl⟩))
  · rintro ⟨pre, c, post, e, g1, g2, g3, g4⟩
    refine ⟨pre.map withoutNumbers, withoutNumbers c, post.map withoutNumbers, by rw [e]; simp, by rw [(withoutNumbers_outside c).1, g1],
      by rw [(withoutNumbers_outside c).2.2.1, g2], ?_, ?_⟩
    · intro d hd
      obtain ⟨d', hd', rfl⟩ := List.mem_map.mp hd
      exact ⟨(noText_without d').mpr (g3 d' hd').1, (hP d').mpr (g3 d' hd').2⟩
    · intro d hd
      obtain ⟨d', hd', rfl⟩ := List.mem_map.mp hd
      exact (noText_without d').mpr (g4 d' hd')

theorem footerTidy_without (row : Node) : FooterTidy (withoutNumbers row) ↔ FooterTidy row :=
  textInCell_without (fun n => by rw [(withoutNumbers_outside n).1]) row

theorem titleTidy_without (row : Node) : TitleTidy (withoutNumbers row) ↔ TitleTidy row :=
  textInCell_without (fun n => by rw [(withoutNumbers_outside n).1, filled_without]) row

theorem get?_filter_ne {d : Dict QName String} {k k' : QName} (h : k ≠ k') : Dict.get? (d.filter (fun p => p.1 ≠ k)) k' = Dict.get? d k' :=
  get?_erase_ne h

mutual
theorem tidy_without (style : QName) (hst : style ≠ name "NO.SEQ") (b b' : Bool) (n : Node) : Tidy style b b' (withoutNumbers n) ↔ Tidy style b b' n := by
  cases n with
  | elem t a x cs tl =>
    have h1 := footerTidy_without (.elem t a x cs tl)
    have h2 := titleTidy_without (.elem t a x cs tl)
    have h3 := isFooter_without t a
    have h4 : Dict.get? (if t = name "TBL" then a.filter (fun p => p.1 ≠ name "NO.SEQ") else a) style = Dict.get? a style := by
      split
      · exact get?_filter_ne (fun e => hst e.symm)
      · rfl
    unfold withoutNumbers at *
    unfold Tidy
    rw [h1, h2, h3, h4, tidy_withoutList style hst _ _ cs]
  | pi => exact .rfl
  | comment => exact .rfl
theorem tidy_withoutList (style : QName) (hst : style ≠ name "NO.SEQ") (b b' : Bool) (ns : List Node) :
    TidyList style b b' (withoutNumbersList ns) ↔ TidyList style b b' ns := by
  cases ns with
  | nil => exact .rfl
  | cons n ns =>
    unfold withoutNumbersList TidyList
    rw [tidy_without style hst b b' n, tidy_withoutList style hst b b' ns]
end

mutual
theorem tidy_noChild (style : QName) (b b' : Bool) (n : Node) (h : Tidy style b b' n) : noChildTable b' n = true := by
  cases n with
  | elem t a x cs tl =>
    unfold Tidy at h
    unfold noChildTable
    rw [Bool.and_eq_true]
    refine ⟨?_, tidy_noChildList style _ _ cs h.2.2.2⟩
    by_cases hb : b' = true
    · simp [h.1 hb]
    · simp [hb]
  | pi => rfl
  | comment => rfl
theorem tidy_noChildList (style : QName) (b b' : Bool) (ns : List Node) (h : TidyList style b b' ns) : noChildTableList b' ns = true := by
  cases ns with
  | nil => rfl
  | cons n ns =>
    unfold TidyList at h
    unfold noChildTableList
    rw [tidy_noChild style b b' n h.1, tidy_noChildList style b b' ns h.2]; rfl
end

/-! ### tables in tables -/

mutual
theorem nodeChars_cleanup (b : Bool) (n : Node) (h : InnerTidy b n) : nodeChars (cleanupNode n) = nodeChars n := by
  cases n with
  | elem t a x cs tl =>
    unfold InnerTidy at h
    unfold cleanupNode
    rw [nodeChars_elem, nodeChars_elem]
    congr 2
    split
    · rename_i ht
      have h2 := h.2
      rw [show decide (t = name "TBL") = true from decide_eq_true ht] at h2
      exact listChars_cleanupIn cs h2
    · exact listChars_cleanup _ cs h.2
  | pi => rfl
  | comment => rfl
theorem listChars_cleanup (b : Bool) (ns : List Node) (h : InnerTidyList b ns) : listChars (cleanupList ns) = listChars ns := by
  cases ns with
  | nil => rfl
  | cons n ns =>
    unfold InnerTidyList at h
    unfold cleanupList
    rw [listChars_cons, listChars_cons, nodeChars_cleanup b n h.1, listChars_cleanup b ns h.2]
theorem listChars_cleanupIn (ns : List Node) (h : InnerTidyList true ns) : listChars (cleanupInTable ns) = listChars ns := by
  cases ns with
  | nil => rfl
  | cons n ns =>
    unfold InnerTidyList at h
    have ih := listChars_cleanupIn ns h.2
    cases n with
    | elem t a x cs tl =>
      have h1 := h.1
      unfold InnerTidy at h1
      unfold cleanupInTable
      split
      · rename_i ht
        have h2 := h1.2
        rw [show decide (t = name "TBL") = true from decide_eq_true ht] at h2
        obtain ⟨e1, e2⟩ := h1.1 rfl ht
        rw [listChars_append, listChars_cleanupIn cs h2, ih, listChars_cons, nodeChars_elem, e1, e2]; simp
      · rw [listChars_cons, listChars_cons, ih, nodeChars_elem, nodeChars_elem, listChars_cleanup _ cs h1.2]
    | pi => unfold cleanupInTable; rw [listChars_cons, listChars_cons, ih]
    | comment => unfold cleanupInTable; rw [listChars_cons, listChars_cons, ih]
end

end Benker
