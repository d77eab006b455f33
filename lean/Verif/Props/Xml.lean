import Verif.Spec.Xml

/-! C42, C43, C44: contents, texts and walks. -/

namespace Benker
open Node Content

/-! ### texts -/

theorem charsOf_append (a b : List Tok) : charsOf (a ++ b) = charsOf a ++ charsOf b := by
  induction a with
  | nil => rfl
  | cons x a ih => cases x <;> simp [charsOf, ih]

theorem charsOf_map (s : List Char) : charsOf (s.map .char) = s := by
  induction s with
  | nil => rfl
  | cons c s ih => simp [charsOf, ih]

theorem charsOf_text (x : Option String) : charsOf (textToks x) = (safeText x).toList := by
  cases x with
  | none => rfl
  | some s => exact charsOf_map _

mutual
theorem nodeText_chars : ∀ n : Node, (nodeText n).toList = charsOf (toks n)
  | .elem t a x cs tl => by
    simp only [nodeText, toks, String.toList_append, List.cons_append, charsOf, charsOf_append, charsOf_text,
      childrenText_chars cs, List.append_nil]
  | .pi _ _ tl => by simp [nodeText, toks, charsOf, charsOf_text]
  | .comment _ tl => by simp [nodeText, toks, charsOf, charsOf_text]
theorem childrenText_chars : ∀ ns : List Node, (childrenText ns).toList = charsOf (toksList ns)
  | [] => rfl
  | n :: ns => by simp only [childrenText, toksList, String.toList_append, charsOf_append, nodeText_chars n, childrenText_chars ns]
end

theorem strItems_append (a b : List (Option Content)) : strItems (a ++ b) = strItems a ++ strItems b := by
  induction a with
  | nil => simp [strItems]
  | cons x a ih => cases x <;> simp [strItems, ih, String.append_assoc]

/-- **C43**: the text of an XML node is made of the characters of its serialisation which are outside tags, comments and processing
instructions, in document order, its tail included. -/
theorem C43_node_text (n : Node) : (text? (some (.node n))).toList = charsOf (toks n) := by
  simp only [text?, str]; exact nodeText_chars n

/-- **C43**: the text of `None` is empty, of a string is this string, of a number is its representation, and of a list is the
concatenation of the texts of its items, at any depth. -/
theorem C43_content_text :
    text? none = "" ∧ (∀ s, text? (some (.text s)) = s) ∧ (∀ r, text? (some (.num r)) = r) ∧
    (∀ items, text? (some (.seq items)) = items.foldr (fun i acc => text? i ++ acc) "") := by
  refine ⟨rfl, fun s => by simp [text?, str], fun r => by simp [text?, str], fun items => ?_⟩
  simp only [text?, str]
  induction items with
  | nil => simp [strItems]
  | cons i items ih => cases i <;> simp [strItems, text?, ih]

/-- a paragraph with mixed content, a comment and a processing instruction -/
def nodeDemo : Node :=
  .elem ⟨none, "p"⟩ [] (some "a") [.elem ⟨none, "b"⟩ [] (some "c") [] (some "d"), .comment "x" (some "e"), .pi "x" "y" none] (some "f")
example : text? (some (.seq [some (.text "1"), none, some (.node nodeDemo), some (.seq [some (.num "2")])])) = "1acdef2" := by
  simp [text?, str, strItems, nodeText, childrenText, safeText, nodeDemo]

/-! ### walks -/

def Node.selected (sel : QName → Bool) (n : Node) : Bool :=
  match n.tag? with
  | some t => sel t
  | none => false

theorem Balanced.append {a b : List Event} (ha : Balanced a) (hb : Balanced b) : Balanced (a ++ b) := by
  induction ha with
  | nil => exact hb
  | wrap n p i a' _ _ _ ih =>
    have := Balanced.wrap n p i (a' ++ b) ‹_› ih
    simpa using this

mutual
theorem walk_balanced (sel : QName → Bool) : ∀ (p : Option Node) (n : Node), Balanced (walk sel p n)
  | p, .elem t a x cs tl => by
    unfold walk
    simp only
    split
    · have := Balanced.wrap (Node.elem t a x cs tl) p _ [] (walkList_balanced sel (some (Node.elem t a x cs tl)) cs) .nil
      simpa using this
    · simpa using walkList_balanced sel (some (Node.elem t a x cs tl)) cs
  | _, .pi _ _ _ => by unfold walk; exact .nil
  | _, .comment _ _ => by unfold walk; exact .nil
theorem walkList_balanced (sel : QName → Bool) : ∀ (p : Option Node) (ns : List Node), Balanced (walkList sel p ns)
  | _, [] => by unfold walkList; exact .nil
  | p, n :: ns => by unfold walkList; exact (walk_balanced sel p n).append (walkList_balanced sel p ns)
end

mutual
theorem walk_starts (sel : QName → Bool) : ∀ (p : Option Node) (n : Node),
    ((walk sel p n).filter (·.start)).map (·.node) = (preorder n).filter (Node.selected sel)
  | p, .elem t a x cs tl => by
    unfold walk preorder
    have ih := walkList_starts sel (some (Node.elem t a x cs tl)) cs
    by_cases h : sel t <;> simp [h, Node.selected, Node.tag?, ih]
  | _, .pi _ _ _ => by simp [walk, preorder]
  | _, .comment _ _ => by simp [walk, preorder]
theorem walkList_starts (sel : QName → Bool) : ∀ (p : Option Node) (ns : List Node),
    ((walkList sel p ns).filter (·.start)).map (·.node) = (preorderList ns).filter (Node.selected sel)
  | _, [] => by simp [walkList, preorderList]
  | p, n :: ns => by
    unfold walkList preorderList
    rw [List.filter_append, List.map_append, List.filter_append, walk_starts sel p n, walkList_starts sel p ns]
end

mutual
theorem walk_ends (sel : QName → Bool) : ∀ (p : Option Node) (n : Node),
    ((walk sel p n).filter (fun e => !e.start)).map (·.node) = (postorder n).filter (Node.selected sel)
  | p, .elem t a x cs tl => by
    unfold walk postorder
    have ih := walkList_ends sel (some (Node.elem t a x cs tl)) cs
    by_cases h : sel t <;> simp [h, Node.selected, Node.tag?, ih]
  | _, .pi _ _ _ => by simp [walk, postorder]
  | _, .comment _ _ => by simp [walk, postorder]
theorem walkList_ends (sel : QName → Bool) : ∀ (p : Option Node) (ns : List Node),
    ((walkList sel p ns).filter (fun e => !e.start)).map (·.node) = (postorderList ns).filter (Node.selected sel)
  | _, [] => by simp [walkList, postorderList]
  | p, n :: ns => by
    unfold walkList postorderList
    rw [List.filter_append, List.map_append, List.filter_append, walk_ends sel p n, walkList_ends sel p ns]
end

/-- **C44**: the walk yields one start event per selected element, parents first, and one end event per selected element, children
first, both in document order; and the events are properly nested. -/
theorem C44_walk (sel : QName → Bool) (p : Option Node) (n : Node) :
    ((walk sel p n).filter (·.start)).map (·.node) = (preorder n).filter (Node.selected sel) ∧
    ((walk sel p n).filter (fun e => !e.start)).map (·.node) = (postorder n).filter (Node.selected sel) ∧
    Balanced (walk sel p n) := ⟨walk_starts sel p n, walk_ends sel p n, walk_balanced sel p n⟩

example : (walk (fun t => t.name = "b") none nodeDemo).map (·.start) = [true, false] := by
  simp [walk, walkList, nodeDemo]

/-! ### mixed content -/

/-- tokens of a cell element under construction -/
def CellElem.toks (f : CellElem) : List Tok := textToks f.text ++ toksList f.children

theorem toksList_append (a b : List Node) : toksList (a ++ b) = toksList a ++ toksList b := by
  induction a with
  | nil => simp [toksList]
  | cons n a ih => simp [toksList, ih]

theorem textToks_add (x : Option String) (s : String) : textToks (some (safeText x ++ s)) = textToks x ++ textToks (some s) := by
  cases x <;> simp [textToks, safeText]

theorem toks_tail (n : Node) (s : String) : toks (n.setTail (some (safeText n.tail ++ s))) = toks n ++ textToks (some s) := by
  cases n <;> simp [setTail, tail, toks, textToks_add]

theorem toksList_mapLast (ns : List Node) (s : String) (h : ns ≠ []) :
    toksList (CellElem.mapLast (fun n => n.setTail (some (safeText n.tail ++ s))) ns) = toksList ns ++ textToks (some s) := by
  induction ns with
  | nil => exact absurd rfl h
  | cons n ns ih =>
    cases ns with
    | nil => simp [CellElem.mapLast, toksList, toks_tail]
    | cons m ns => simp only [CellElem.mapLast, toksList, ih (by simp), List.append_assoc]

/-- a text or a node -/
def IsPiece : Option Content → Prop
  | some (.text _) => True
  | some (.node _) => True
  | _ => False

theorem steps_toks (l : List (Option Content)) (hl : ∀ c ∈ l, IsPiece c) : ∀ f : CellElem,
    ∃ f', f.steps l = .ok f' ∧ f'.toks = f.toks ++ l.flatMap pieceToks := by
  induction l with
  | nil => intro f; exact ⟨f, rfl, by simp⟩
  | cons c l ih =>
    intro f
    have hc := hl c (by simp)
    have ih := ih (fun x hx => hl x (by simp [hx]))
    have one : ∃ f1, f.step c = .ok f1 ∧ f1.toks = f.toks ++ pieceToks c := by
      cases c with
      | none => exact absurd hc id
      | some c =>
        cases c with
        | text s =>
          by_cases h : f.children.length = 0
          · refine ⟨{ f with text := some (safeText f.text ++ s) }, by simp [CellElem.step, h], ?_⟩
            have : f.children = [] := List.eq_nil_of_length_eq_zero h
            simp [CellElem.toks, textToks_add, this, toksList, pieceToks]
          · refine ⟨{ f with children := CellElem.mapLast (fun n => n.setTail (some (safeText n.tail ++ s))) f.children }, by simp [CellElem.step, h], ?_⟩
            have : f.children ≠ [] := by intro e; simp [e] at h
            simp [CellElem.toks, toksList_mapLast _ _ this, pieceToks]
        | node n => exact ⟨_, rfl, by simp [CellElem.toks, toksList_append, toksList, pieceToks]⟩
        | num _ => exact absurd hc id
        | other _ => exact absurd hc id
        | seq _ => exact absurd hc id
    obtain ⟨f1, h1, h2⟩ := one
    obtain ⟨f', h3, h4⟩ := ih f1
    refine ⟨f', ?_, ?_⟩
    · unfold CellElem.steps; rw [h1]; exact h3
    · rw [h4, h2]; simp

/-- **C42**: appending a list of texts and nodes to an empty cell element puts every node and every text at its place: the tokens of the
inside of the element are those of the pieces, in order. -/
theorem C42_mixed_content (l : List (Option Content)) (hl : ∀ c ∈ l, IsPiece c) :
    ∃ f, CellElem.append ⟨none, []⟩ (some (.seq l)) = .ok f ∧ f.toks = l.flatMap pieceToks := by
  obtain ⟨f, h1, h2⟩ := steps_toks l hl ⟨none, []⟩
  exact ⟨f, h1, by simpa [CellElem.toks, textToks, toksList] using h2⟩

/-- **C42** (anything else): an item which is neither a text nor a node is refused. -/
theorem C42_refused (l : List (Option Content)) (hl : ∃ c ∈ l, ¬ IsPiece c) : CellElem.append ⟨none, []⟩ (some (.seq l)) = .error .typeError := by
  show CellElem.steps _ l = _
  have : ∀ f : CellElem, f.steps l = .error .typeError := by
    induction l with
    | nil => obtain ⟨c, hc, _⟩ := hl; simp at hc
    | cons c l ih =>
      intro f
      unfold CellElem.steps
      by_cases hc : IsPiece c
      · have ih := ih (by
          obtain ⟨d, hd, hnd⟩ := hl
          rcases List.mem_cons.mp hd with rfl | hd
          · exact absurd hc hnd
          · exact ⟨d, hd, hnd⟩)
        cases hs : f.step c with
        | ok f' => exact ih f'
        | error e =>
          obtain ⟨f', h1, _⟩ := steps_toks [c] (by simpa using hc) f
          unfold CellElem.steps at h1; rw [hs] at h1; cases h1
      · have : f.step c = .error .typeError := by
          cases c with
          | none => rfl
          | some c => cases c <;> first | rfl | exact absurd trivial hc
        rw [this]
  exact this _

/-- content of an entry as the CALS parser reads it: its text if it is not empty, then its children (parsers/cals/__init__.py 438-439) -/
def readContent (text : Option String) (children : List Node) : List (Option Content) :=
  (if safeText text = "" then [] else [some (.text (safeText text))]) ++ children.map (fun n => some (.node n))

theorem steps_nodes (ns : List Node) : ∀ f : CellElem, f.steps (ns.map (fun n => some (.node n))) = .ok ⟨f.text, f.children ++ ns⟩ := by
  induction ns with
  | nil => intro f; simp [CellElem.steps]
  | cons n ns ih => intro f; simp only [List.map_cons, CellElem.steps, CellElem.step, ih]; simp

/-- **C42** (round trip): reading the text and the children of an element and appending them again gives the same children and
the same text (an empty text being the same as no text). -/
theorem C42_round_trip (text : Option String) (children : List Node) :
    ∃ f, CellElem.append ⟨none, []⟩ (some (.seq (readContent text children))) = .ok f ∧
      f.children = children ∧ safeText f.text = safeText text := by
  show ∃ f, CellElem.steps ⟨none, []⟩ (readContent text children) = .ok f ∧ _
  unfold readContent
  by_cases h : safeText text = ""
  · rw [if_pos h, List.nil_append, steps_nodes]
    exact ⟨_, rfl, by simp, by rw [h]; rfl⟩
  · rw [if_neg h]
    have hs : CellElem.step ⟨none, []⟩ (some (.text (safeText text))) = .ok ⟨some ("" ++ safeText text), []⟩ := rfl
    rw [List.singleton_append, CellElem.steps, hs]
    simp only
    rw [steps_nodes]
    refine ⟨_, rfl, by simp, by simp [safeText]⟩

example : ∀ c ∈ [some (.text "a"), some (.node nodeDemo), some (.text "b"), some (.text "c")], IsPiece c := by
  simp [IsPiece]
example : ∃ c ∈ [some (.text "a"), none], ¬ IsPiece c := ⟨none, by simp, id⟩

end Benker
