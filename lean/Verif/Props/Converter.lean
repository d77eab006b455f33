import Verif.Spec.Converter
import Verif.Lemmas.Except
import Verif.Props.CalsParser
import Verif.Props.OoxmlMerge
import Verif.Props.CalsBuilder
import Verif.Props.FormexBlocks

/-! C58: replacing the tables of a document keeps everything else in place. -/

namespace Benker.Convert
open PyM

theorem replaceAt_split (done : List Node) (n e : Node) (rest : List Node) :
    replaceAt done.length n e (done ++ n :: rest) = done ++ e.setTail n.tail :: rest := by
  unfold replaceAt
  induction done with
  | nil => simp
  | cons d done ih => simpa using ih

/-- one turn of the loop, seen without indices -/
theorem childAt_split (c : Conv) (rec : List Node → Node → Except PyErr Node) (ctx done : List Node) (n : Node) (rest : List Node) :
    childAt c rec ctx done.length (done ++ n :: rest) =
      (if c.selects n then do
        let e ← c.convert (rest ++ ctx) n
        let m ← rec (rest ++ ctx) (e.setTail n.tail)
        pure (done ++ m :: rest)
      else do
        let m ← rec (rest ++ ctx) n
        pure (done ++ m :: rest)) := by
  have hget : ∀ x : Node, (done ++ x :: rest)[done.length]? = some x := by intro x; simp
  have hdrop : ∀ x : Node, (done ++ x :: rest).drop (done.length + 1) = rest := by
    intro x; rw [List.drop_append]; simp
  have hset : ∀ x y : Node, (done ++ x :: rest).set done.length y = done ++ y :: rest := by intro x y; simp
  unfold childAt
  rw [hget]
  cases hs : c.selects n with
  | true =>
    simp only [if_true, hdrop, hs]
    cases c.convert (rest ++ ctx) n with
    | error e => rfl
    | ok e =>
      simp only [pure, Except.pure, bind, Except.bind, replaceAt_split, hget, hdrop, hset]
  | false =>
    simp only [Bool.false_eq_true, if_false, hs, pure, Except.pure, bind, Except.bind, hget, hdrop, hset]

theorem bind_ok_inv {α β : Type} {m : Except PyErr α} {f : α → Except PyErr β} {b : β} (h : (m >>= f) = .ok b) :
    ∃ a, m = .ok a ∧ f a = .ok b := by
  cases m with
  | error e => cases h
  | ok a => exact ⟨a, rfl, h⟩

/-- what the loop computes is a replacement -/
theorem childrenFrom_sound (c : Conv) (rec : List Node → Node → Except PyErr Node)
    (hrec : ∀ ctx n n', rec ctx n = .ok n' → ReplacedInside c ctx n n') (ctx : List Node) :
    ∀ (todo done out : List Node), childrenFrom c rec ctx todo.length done.length (done ++ todo) = .ok out →
      ∃ todo', out = done ++ todo' ∧ ReplacedList c ctx todo todo' := by
  intro todo
  induction todo with
  | nil =>
    intro done out h
    rw [List.append_nil] at h
    refine ⟨[], ?_, .nil _⟩
    rw [List.append_nil]
    exact (Except.ok.inj h).symm
  | cons n rest ih =>
    intro done out h
    obtain ⟨cs, hcs, hrest⟩ := bind_ok_inv (f := fun cs => childrenFrom c rec ctx rest.length (done.length + 1) cs) h
    rw [childAt_split] at hcs
    have key : ∃ m, cs = done ++ m :: rest ∧ Replaced c (rest ++ ctx) n m := by
      cases hs : c.selects n with
      | true =>
        rw [hs, if_pos rfl] at hcs
        obtain ⟨e, he, hcs⟩ := bind_ok_inv hcs
        obtain ⟨m, hm, hcs⟩ := bind_ok_inv hcs
        exact ⟨m, (Except.ok.inj hcs).symm, .table _ _ e _ hs he (hrec _ _ _ hm)⟩
      | false =>
        rw [hs, if_neg (by simp)] at hcs
        obtain ⟨m, hm, hcs⟩ := bind_ok_inv hcs
        exact ⟨m, (Except.ok.inj hcs).symm, .other _ _ _ hs (hrec _ _ _ hm)⟩
    obtain ⟨m, hcs, hm⟩ := key
    subst hcs
    have e1 : done ++ m :: rest = (done ++ [m]) ++ rest := by simp
    have e2 : done.length + 1 = (done ++ [m]).length := by simp
    rw [e1, e2] at hrest
    obtain ⟨todo', h1, h2⟩ := ih _ _ hrest
    exact ⟨m :: todo', by rw [h1]; simp, .cons _ _ _ _ _ hm h2⟩

theorem inside_sound (c : Conv) : ∀ (limit : Nat) (ctx : List Node) (n n' : Node), inside c limit ctx n = .ok n' →
    ReplacedInside c ctx n n' := by
  intro limit
  induction limit with
  | zero => intro ctx n n' h; cases h
  | succ limit ih =>
    intro ctx n n' h
    cases n with
    | elem t a x cs tl =>
      obtain ⟨cs', h1, h2⟩ := bind_ok_inv h
      obtain ⟨cs'', h3, h4⟩ := childrenFrom_sound c (inside c limit) ih ctx cs [] cs' h1
      rw [List.nil_append] at h3
      subst h3
      rw [← Except.ok.inj h2]
      exact .elem _ _ _ _ _ _ _ h4
    | pi t d tl => rw [← Except.ok.inj h]; exact .pi _ _ _ _
    | comment d tl => rw [← Except.ok.inj h]; exact .comment _ _ _

mutual
theorem replaced_found (c : Conv) : ∀ {ctx : List Node} {n n' : Node}, Replaced c ctx n n' →
    ∃ limit, ∀ l, limit ≤ l → ∀ (done rest ctx' : List Node), ctx = rest ++ ctx' →
      childAt c (inside c l) ctx' done.length (done ++ n :: rest) = .ok (done ++ n' :: rest)
  | _, _, _, .table ctx n e n' hs he hi => by
    obtain ⟨limit, hl⟩ := inside_found c hi
    refine ⟨limit, fun l h done rest ctx' hc => ?_⟩
    subst hc
    rw [childAt_split, hs, if_pos rfl, he, ok_bind, hl l h, ok_bind]
    rfl
  | _, _, _, .other ctx n n' hs hi => by
    obtain ⟨limit, hl⟩ := inside_found c hi
    refine ⟨limit, fun l h done rest ctx' hc => ?_⟩
    subst hc
    rw [childAt_split, hs, if_neg (by simp), hl l h, ok_bind]
    rfl
theorem inside_found (c : Conv) : ∀ {ctx : List Node} {n n' : Node}, ReplacedInside c ctx n n' →
    ∃ limit, ∀ l, limit ≤ l → inside c l ctx n = .ok n'
  | _, _, _, .elem ctx t a x cs cs' tl h => by
    obtain ⟨limit, hl⟩ := list_found c h
    refine ⟨limit + 1, fun l h => ?_⟩
    obtain ⟨l, rfl⟩ : ∃ k, l = k + 1 := ⟨l - 1, by omega⟩
    have := hl l (by omega) []
    unfold inside
    rw [show cs = [] ++ cs from rfl]
    simp only [List.nil_append] at this ⊢
    rw [show (0 : Nat) = ([] : List Node).length from rfl, this]
    rfl
  | _, _, _, .pi ctx t d tl => ⟨1, fun l h => by
      obtain ⟨l, rfl⟩ : ∃ k, l = k + 1 := ⟨l - 1, by omega⟩
      rfl⟩
  | _, _, _, .comment ctx d tl => ⟨1, fun l h => by
      obtain ⟨l, rfl⟩ : ∃ k, l = k + 1 := ⟨l - 1, by omega⟩
      rfl⟩
theorem list_found (c : Conv) : ∀ {ctx : List Node} {ns ns' : List Node}, ReplacedList c ctx ns ns' →
    ∃ limit, ∀ l, limit ≤ l → ∀ done : List Node,
      childrenFrom c (inside c l) ctx ns.length done.length (done ++ ns) = .ok (done ++ ns')
  | _, _, _, .nil ctx => ⟨0, fun l _ done => rfl⟩
  | _, _, _, .cons ctx n n' ns ns' h hs => by
    obtain ⟨l1, h1⟩ := replaced_found c h
    obtain ⟨l2, h2⟩ := list_found c hs
    refine ⟨l1 + l2, fun l hl done => ?_⟩
    show (childAt c (inside c l) ctx done.length (done ++ n :: ns) >>= fun cs =>
      childrenFrom c (inside c l) ctx ns.length (done.length + 1) cs) = _
    rw [h1 l (by omega) done ns ctx rfl, ok_bind]
    have := h2 l (by omega) (done ++ [n'])
    simpa using this
end

/-- C58.  The document produced is the source document with every table replaced by what the converter makes of it, followed by the
text which followed the table, and nothing else changed; and if such a document exists, it is produced (whatever the depth of the
document). -/
theorem C58_replacement (c : Conv) (doc doc' : Node) (hroot : c.selects doc = false) :
    (∃ limit, transformTables c limit doc = .ok doc') ↔ Replaced c [] doc doc' := by
  have e : ∀ limit, transformTables c limit doc = inside c limit [] doc := by
    intro limit; unfold transformTables; rw [hroot, if_neg (by simp)]
  constructor
  · rintro ⟨limit, h⟩
    rw [e] at h
    exact .other _ _ _ hroot (inside_sound c _ _ _ _ h)
  · intro h
    cases h with
    | table _ _ _ _ hs => rw [hs] at hroot; cases hroot
    | other _ _ _ _ h =>
      obtain ⟨limit, hl⟩ := inside_found c h
      exact ⟨limit, by rw [e]; exact hl limit (Nat.le_refl _)⟩

theorem selects_elem (c : Conv) (t a x cs tl) : c.selects (.elem t a x cs tl) = c.isTable t := rfl

mutual
theorem Replaced.free {c : Conv} : ∀ {ctx : List Node} {n n' : Node}, Replaced c ctx n n' → tableFree c n = true → n' = n
  | _, _, _, .table _ n _ _ hs _ _, hf => by
    cases n with
    | elem t a x cs tl => rw [selects_elem] at hs; simp [tableFree, hs] at hf
    | pi => cases hs
    | comment => cases hs
  | _, _, _, .other _ _ _ _ h, hf => h.free hf
theorem ReplacedInside.free {c : Conv} : ∀ {ctx : List Node} {n n' : Node}, ReplacedInside c ctx n n' → tableFree c n = true → n' = n
  | _, _, _, .elem _ _ _ _ _ _ _ h, hf => by
    rw [h.free (by simp only [tableFree, Bool.and_eq_true] at hf; exact hf.2)]
  | _, _, _, .pi .., _ => rfl
  | _, _, _, .comment .., _ => rfl
theorem ReplacedList.free {c : Conv} : ∀ {ctx : List Node} {ns ns' : List Node}, ReplacedList c ctx ns ns' → tableFreeList c ns = true →
    ns' = ns
  | _, _, _, .nil _, _ => rfl
  | _, _, _, .cons _ _ _ _ _ h hs, hf => by
    simp only [tableFreeList, Bool.and_eq_true] at hf
    rw [h.free hf.1, hs.free hf.2]
end

theorem ReplacedInside.same {c : Conv} {ctx : List Node} {n n' : Node} (h : ReplacedInside c ctx n n') :
    n'.tag? = n.tag? ∧ n'.attrs = n.attrs ∧ n'.text = n.text ∧ n'.tail = n.tail ∧ ReplacedList c ctx n.children n'.children := by
  cases h with
  | elem _ _ _ _ _ _ _ h => exact ⟨rfl, rfl, rfl, rfl, h⟩
  | pi => exact ⟨rfl, rfl, rfl, rfl, .nil _⟩
  | comment => exact ⟨rfl, rfl, rfl, rfl, .nil _⟩

theorem ReplacedList.length {c : Conv} : ∀ {ns : List Node} {ctx : List Node} {ns' : List Node}, ReplacedList c ctx ns ns' →
    ns'.length = ns.length := by
  intro ns
  induction ns with
  | nil => intro ctx ns' h; cases h; rfl
  | cons n ns ih => intro ctx ns' h; cases h with | cons _ _ _ _ _ _ h => simp [ih h]

theorem ReplacedList.get {c : Conv} : ∀ {ns : List Node} {ctx : List Node} {ns' : List Node}, ReplacedList c ctx ns ns' →
    ∀ (i : Nat) (n : Node), ns[i]? = some n → ∃ n', ns'[i]? = some n' ∧ Replaced c (ns.drop (i + 1) ++ ctx) n n' := by
  intro ns
  induction ns with
  | nil => intro ctx ns' _ i n h; simp at h
  | cons m ns ih =>
    intro ctx ns' h i n hi
    cases h with
    | cons _ _ m' _ ns'' h hs =>
      cases i with
      | zero =>
        simp only [List.getElem?_cons_zero, Option.some.injEq] at hi
        subst hi
        exact ⟨m', rfl, h⟩
      | succ i =>
        simp only [List.getElem?_cons_succ] at hi
        obtain ⟨n', h1, h2⟩ := ih hs i n hi
        exact ⟨n', by simpa using h1, by simpa using h2⟩

theorem tail_setTail (n : Node) (t : Option String) : (n.setTail t).tail = t := by cases n <;> rfl

theorem setTail_same (n : Node) (t : Option String) : (n.setTail t).tag? = n.tag? ∧ (n.setTail t).attrs = n.attrs ∧
    (n.setTail t).text = n.text ∧ (n.setTail t).children = n.children := by cases n <;> exact ⟨rfl, rfl, rfl, rfl⟩

theorem Replaced.tail {c : Conv} {ctx : List Node} {n n' : Node} (h : Replaced c ctx n n') : n'.tail = n.tail := by
  cases h with
  | table _ _ e _ _ _ h => rw [h.same.2.2.2.1, tail_setTail]
  | other _ _ _ _ h => exact h.same.2.2.2.1

theorem replaced_path (c : Conv) : ∀ (path : List Nat) (n n' m ctx), Replaced c ctx n n' → descend path n = some m →
    outside c path n = true → ∃ m' ctx', descend path n' = some m' ∧ Replaced c ctx' m m' ∧ c.selects m = false := by
  intro path
  induction path with
  | nil =>
    intro n n' m ctx h hd ho
    cases hd
    exact ⟨n', ctx, rfl, h, by simpa [outside] using ho⟩
  | cons i path ih =>
    intro n n' m ctx h hd ho
    unfold outside at ho
    rw [Bool.and_eq_true] at ho
    cases h with
    | table _ _ _ _ hs => rw [hs] at ho; cases ho.1
    | other _ _ _ _ h =>
      unfold descend at hd ⊢
      cases hi : n.children[i]? with
      | none => rw [hi] at hd; cases hd
      | some k =>
        rw [hi] at hd
        have ho2 := ho.2
        rw [hi] at ho2
        obtain ⟨k', h1, h2⟩ := h.same.2.2.2.2.get i k hi
        rw [h1]
        exact ih k k' m _ h2 hd ho2

/-- C58, place by place.  Take any element `n` of the source document which is not in a table.  At the same place of the document
produced there is an element with the same name, attributes, text and following text, and as many children.  Each child is still
followed by the same text; a child without table is unchanged; a child which is a table has been replaced by what the converter made of
it: same name, attributes, text and number of children. -/
theorem C58_places (c : Conv) (limit : Nat) (doc doc' : Node) (h : transformTables c limit doc = .ok doc') (path : List Nat) (n : Node)
    (hn : descend path doc = some n) (hout : outside c path doc = true) :
    ∃ n', descend path doc' = some n' ∧ n'.tag? = n.tag? ∧ n'.attrs = n.attrs ∧ n'.text = n.text ∧ n'.tail = n.tail ∧
      n'.children.length = n.children.length ∧
      ∀ (i : Nat) (child : Node), n.children[i]? = some child → ∃ child', n'.children[i]? = some child' ∧
        child'.tail = child.tail ∧ (tableFree c child = true → child' = child) ∧
        (c.selects child = true → ∃ following made, c.convert following child = .ok made ∧ child'.tag? = made.tag? ∧
          child'.attrs = made.attrs ∧ child'.text = made.text ∧ child'.children.length = made.children.length) := by
  have hroot : c.selects doc = false := by
    cases hs : c.selects doc with
    | false => rfl
    | true =>
      cases path with
      | nil => simp [outside, hs] at hout
      | cons => simp [outside, hs] at hout
  have hrep := (C58_replacement c doc doc' hroot).mp ⟨limit, h⟩
  obtain ⟨n', ctx', h1, h2, h3⟩ := replaced_path c path doc doc' n [] hrep hn hout
  cases h2 with
  | table _ _ _ _ hs => rw [hs] at h3; cases h3
  | other _ _ _ _ h2 =>
    obtain ⟨s1, s2, s3, s4, s5⟩ := h2.same
    refine ⟨n', h1, s1, s2, s3, s4, s5.length, fun i child hi => ?_⟩
    obtain ⟨child', c1, c2⟩ := s5.get i child hi
    refine ⟨child', c1, c2.tail, c2.free, fun hs => ?_⟩
    cases c2 with
    | other _ _ _ hs' => rw [hs] at hs'; cases hs'
    | table _ _ e _ _ he hin =>
      obtain ⟨t1, t2, t3, _, t5⟩ := hin.same
      obtain ⟨u1, u2, u3, u4⟩ := setTail_same e child.tail
      exact ⟨_, e, he, t1.trans u1, t2.trans u2, t3.trans u3, by rw [t5.length, u4]⟩

/-- C58.  A document without table is unchanged. -/
theorem C58_untouched (c : Conv) (limit : Nat) (doc doc' : Node) (hfree : tableFree c doc = true)
    (h : transformTables c limit doc = .ok doc') : doc' = doc := by
  have hroot : c.selects doc = false := by
    cases doc with
    | elem t a x cs tl => simp only [tableFree, Bool.and_eq_true, Bool.not_eq_true'] at hfree; exact hfree.1
    | pi => rfl
    | comment => rfl
  exact ((C58_replacement c doc doc' hroot).mp ⟨limit, h⟩).free hfree

/-- C58 does not hold of a document whose root is a table: the conversion always fails. -/
theorem C58_root_counterexample (c : Conv) (limit : Nat) (doc : Node) (h : c.selects doc = true) :
    ∃ e, transformTables c limit doc = .error e := by
  unfold transformTables
  rw [h, if_pos rfl]
  cases c.convert [] doc with
  | error e => exact ⟨e, rfl⟩
  | ok n => exact ⟨.attributeError, rfl⟩

/-! ### sections -/

mutual
theorem firstSect_eq : ∀ n : Node, firstSect n = (preorder n).find? (fun e => e.tag? = some (Ooxml.w "sectPr"))
  | .elem t a x cs tl => by
    unfold firstSect preorder
    rw [List.find?_cons]
    by_cases h : t = Ooxml.w "sectPr"
    · rw [if_pos h]; simp [Node.tag?, h]
    · rw [if_neg h, firstSectList_eq cs]; simp [Node.tag?, h]
  | .pi _ _ _ => rfl
  | .comment _ _ => rfl
theorem firstSectList_eq : ∀ ns : List Node, firstSectList ns = (preorderList ns).find? (fun e => e.tag? = some (Ooxml.w "sectPr"))
  | [] => rfl
  | n :: ns => by
    unfold firstSectList preorderList
    rw [List.find?_append, firstSect_eq n, firstSectList_eq ns]
    cases (preorder n).find? (fun e => decide (e.tag? = some (Ooxml.w "sectPr"))) <;> rfl
end

/-- The section of a Word table, which tells its page, is described by the first `w:sectPr` which follows the table in the document. -/
theorem C58_section (p : Ooxml.Config) (cals : Cals.Config) (fmx : Fmx.Config) (following : List Node) (n : Node) :
    let parsed := eval (Ooxml.parseTable p
      ((preorderList following).find? (fun e => e.tag? = some ⟨some "http://schemas.openxmlformats.org/wordprocessingml/2006/main", "sectPr"⟩)) n) PState.init
    (ooxml2cals p cals).convert following n = thenGenerate parsed (Cals.generate cals) ∧
    (ooxml2formex p fmx).convert following n = thenGenerate parsed (Fmx.generate fmx 1) := by
  intro parsed
  have h := firstSectList_eq following
  refine ⟨?_, ?_⟩
  · show thenGenerate (eval (Ooxml.parseTable p (firstSectList following) n) PState.init) _ = _
    rw [h]; rfl
  · show thenGenerate (eval (Ooxml.parseTable p (firstSectList following) n) PState.init) _ = _
    rw [h]; rfl

/-! ### not vacuous -/

/-- a document with two tables; the first one is in a section, contains a table and is followed by text -/
def convertDemo : Node :=
  let table (x : Option String) (cs : List Node) (after : String) : Node := .elem ⟨none, "table"⟩ [] none
    [.elem ⟨none, "tgroup"⟩ [] none [.elem ⟨none, "tbody"⟩ [] none [.elem ⟨none, "row"⟩ [] none [.elem ⟨none, "entry"⟩ [] x cs none] none] none] none]
    (some after)
  .elem ⟨none, "doc"⟩ [] (some "title")
    [.elem ⟨none, "sect"⟩ [(⟨none, "id"⟩, "1")] (some "text")
      [.comment "c" (some "!"), table (some "a") [table (some "b") [] "inner"] "first", .pi "p" "q" none] (some "end"),
     table none [] "last"] none

/-- names, texts and following texts of the elements of a document -/
def outline (n : Except PyErr Node) : List (String × Option String × Option String) :=
  match n with
  | .error _ => []
  | .ok n => (preorder n).map (fun e => ((e.tag?.map (·.name)).getD "", e.text, e.tail))

def demoConv : Conv := cals2formex ⟨none, "pt".toList, id⟩ ⟨false, false, none, "mm".toList, id⟩

theorem convertDemo_ok : outline (transformTables demoConv 20 convertDemo) =
    [("doc", some "title", none), ("sect", some "text", some "end"), ("TBL", none, some "first"), ("CORPUS", none, none),
     ("ROW", none, none), ("CELL", some "a", none), ("TBL", none, some "inner"), ("CORPUS", none, none), ("ROW", none, none),
     ("CELL", some "b", none), ("TBL", none, some "last"), ("CORPUS", none, none), ("ROW", none, none), ("CELL", none, none),
     ("IE", none, none)] := by
  decide +kernel

example : demoConv.selects convertDemo = false ∧ (∃ doc', transformTables demoConv 20 convertDemo = .ok doc') ∧
    outside demoConv [0] convertDemo = true ∧ (∃ n, descend [0] convertDemo = some n ∧ n.children.length = 3) := by
  refine ⟨rfl, ?_, by decide +kernel, _, rfl, rfl⟩
  cases h : transformTables demoConv 20 convertDemo with
  | ok d => exact ⟨d, rfl⟩
  | error e => have := convertDemo_ok; rw [h] at this; cases this

/-- a Word document: a table, then a paragraph with the properties of its section -/
def wordDemo : Node :=
  .elem (Ooxml.w "body") [] none [Ooxml.mergeDemo.setTail (some "after"),
    .elem (Ooxml.w "p") [] none [.elem (Ooxml.w "pPr") [] none [.elem (Ooxml.w "sectPr") [] none
      [.elem (Ooxml.w "cols") [(Ooxml.w "num", "2")] none [] none] none] none] none] none

/-- the section which follows the table is found: it has two columns -/
example : (match transformTables (ooxml2cals wConfig calsConfig) 20 wordDemo with
    | .ok doc => doc.children.map (fun n => (n.tag?.map (·.name), n.attr ⟨none, "pgwide"⟩, n.tail))
    | .error _ => []) = [(some "table", some "0", some "after"), (some "p", none, none)] := by decide +kernel

end Benker.Convert
