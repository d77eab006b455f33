import Verif.Spec.OnePlacement
import Verif.Props.CalsRagged
import Verif.Props.FormexRagged
import Verif.Props.Integers
import Verif.Lemmas.Conversion

/-! C109 and C110: the specifications of the places leave no choice. -/

namespace Benker
open PyM CalsSpec FmxSpec

/-- same line, same size -/
def SameSize (a b : Box) : Prop := a.min.y = b.min.y ∧ a.max.x - a.min.x = b.max.x - b.min.x ∧ a.max.y - a.min.y = b.max.y - b.min.y

/-- each box is at the first free place of its line -/
structure Leftmost (l : List Box) : Prop where
  valid : ∀ b ∈ l, 1 ≤ b.min.x ∧ b.min.x ≤ b.max.x ∧ b.min.y ≤ b.max.y
  disjoint : l.Pairwise (fun a b => ¬ Overlap a b)
  leftmost : ∀ pre b post, l = pre ++ b :: post → ∀ x : Int, 1 ≤ x → x < b.min.x → ∃ a ∈ pre, InBox ⟨x, b.min.y⟩ a

theorem Leftmost.free {pre post : List Box} {b : Box} (h : Leftmost (pre ++ b :: post)) : ¬ ∃ a ∈ pre, InBox b.min a := by
  rintro ⟨a, ha, hin⟩
  have hv := h.valid b (by simp)
  have := (List.pairwise_append.mp h.disjoint).2.2 a ha b (by simp)
  exact this ⟨b.min, hin, by simp only [InBox]; omega⟩

theorem boxes_unique : ∀ (l l' pre : List Box), All₂ SameSize l l' → Leftmost (pre ++ l) → Leftmost (pre ++ l') → l = l'
  | _, _, _, .nil, _, _ => rfl
  | a :: l, b :: l', pre, .cons hab hl, h, h' => by
    have hva := h.valid a (by simp)
    have hvb := h'.valid b (by simp)
    obtain ⟨s1, s2, s3⟩ := hab
    have hx : a.min.x = b.min.x := by
      rcases Int.lt_trichotomy a.min.x b.min.x with hlt | heq | hlt
      · obtain ⟨c, hc, hin⟩ := h'.leftmost pre b l' rfl a.min.x hva.1 hlt
        exact absurd ⟨c, hc, by rw [← s1] at hin; exact hin⟩ h.free
      · exact heq
      · obtain ⟨c, hc, hin⟩ := h.leftmost pre a l rfl b.min.x hvb.1 hlt
        exact absurd ⟨c, hc, by rw [s1] at hin; exact hin⟩ h'.free
    have : a = b := by apply box_ext <;> omega
    subst this
    have e : ∀ m : List Box, pre ++ a :: m = (pre ++ [a]) ++ m := fun m => by simp
    rw [e] at h h'
    rw [boxes_unique l l' (pre ++ [a]) hl h h']

theorem integer_unique {s : String} {n m : Int} (h : IsInteger s n) (h' : IsInteger s m) : n = m := by
  rw [← (C106_integers s).1] at h h'
  rw [h] at h'; exact Except.ok.inj h'

theorem number_unique {s : String} {n m : Nat} (h : IsNumber s n) (h' : IsNumber s m) : n = m := by
  have := integer_unique h h'
  omega

theorem firstNumber_unique {s : String} {n m : Nat} (h : FirstNumber s n) (h' : FirstNumber s m) : n = m := by
  rw [← (C106_first s).1] at h h'
  rw [h] at h'
  have := Except.ok.inj h'
  omega

theorem spansColumns_unique {a b : Option String} {n m : Int} (h : SpansColumns a b n) (h' : SpansColumns a b m) : n = m := by
  rcases h with ⟨rfl, rfl, rfl⟩ | ⟨s, e, x, y, rfl, rfl, h1, h2, rfl⟩
  · rcases h' with ⟨_, _, rfl⟩ | ⟨s, e, x, y, g, _⟩
    · rfl
    · cases g
  · rcases h' with ⟨g, _⟩ | ⟨s', e', x', y', g1, g2, h3, h4, rfl⟩
    · cases g
    · cases g1; cases g2
      rw [firstNumber_unique h1 h3, firstNumber_unique h2 h4]

theorem spansRows_unique {a : Option String} {n m : Int} (h : SpansRows a n) (h' : SpansRows a m) : n = m := by
  rcases h with ⟨rfl, rfl⟩ | ⟨s, x, rfl, h1, rfl⟩
  · rcases h' with ⟨_, rfl⟩ | ⟨s, x, g, _⟩
    · rfl
    · cases g
  · rcases h' with ⟨g, _⟩ | ⟨s', x', g1, h3, rfl⟩
    · cases g
    · cases g1
      rw [number_unique h1 h3]

theorem toldNumber_unique {a : Option String} {k n m : Nat} (h : ToldNumber a k n) (h' : ToldNumber a k m) : n = m := by
  rcases h with ⟨rfl, rfl⟩ | ⟨s, rfl, h1⟩
  · rcases h' with ⟨_, rfl⟩ | ⟨s, g, _⟩
    · rfl
    · cases g
  · rcases h' with ⟨g, _⟩ | ⟨s', g1, h3⟩
    · cases g
    · cases g1
      exact number_unique h1 h3

theorem cellColumns_unique {a b c : Option String} {n m : Int} (h : CellColumns a b c n) (h' : CellColumns a b c m) : n = m := by
  obtain ⟨k, hk, h⟩ := h
  obtain ⟨k', hk', h'⟩ := h'
  have := toldNumber_unique hk hk'
  subst this
  rcases h with ⟨s, e, x, y, rfl, rfl, h1, h2, rfl⟩ | ⟨g, rfl⟩
  · rcases h' with ⟨s', e', x', y', g1, g2, h3, h4, rfl⟩ | ⟨g | g, _⟩
    · cases g1; cases g2
      rw [firstNumber_unique h1 h3, firstNumber_unique h2 h4]
    · cases g
    · cases g
  · rcases h' with ⟨s', e', x', y', g1, g2, h3, h4, rfl⟩ | ⟨_, rfl⟩
    · rcases g with g | g
      · rw [g] at g1; cases g1
      · rw [g] at g2; cases g2
    · rfl

theorem cellRows_unique {a b : Option String} {n m : Int} (h : CellRows a b n) (h' : CellRows a b m) : n = m := by
  obtain ⟨k, hk, h⟩ := h
  obtain ⟨k', hk', h'⟩ := h'
  have := toldNumber_unique hk hk'
  subst this
  rcases h with ⟨s, x, rfl, h1, rfl⟩ | ⟨g, rfl⟩
  · rcases h' with ⟨s', x', g1, h3, rfl⟩ | ⟨g, _⟩
    · cases g1
      rw [number_unique h1 h3]
    · cases g
  · rcases h' with ⟨s', x', g1, h3, rfl⟩ | ⟨_, rfl⟩
    · rw [g] at g1; cases g1
    · rfl

theorem all₂_pointwise {α β : Type} {R : α → β → Prop} : ∀ (l : List α) (l' : List β), l.length = l'.length →
    (∀ (i : Nat) (a : α) (b : β), l[i]? = some a → l'[i]? = some b → R a b) → All₂ R l l'
  | [], [], _, _ => .nil
  | [], _ :: _, h, _ => by cases h
  | _ :: _, [], h, _ => by cases h
  | a :: l, b :: l', h, hR => .cons (hR 0 a b rfl rfl) (all₂_pointwise l l' (by simpa using h) (fun i x y h1 h2 => hR (i + 1) x y h1 h2))

theorem all₂_flat {α β γ δ : Type} {R : γ → δ → Prop} {F : α → List γ} {G : β → List δ} : ∀ {l : List α} {l' : List β},
    All₂ (fun a b => All₂ R (F a) (G b)) l l' → All₂ R (l.flatMap F) (l'.flatMap G)
  | _, _, .nil => .nil
  | _, _, .cons h hl => by
    rw [List.flatMap_cons, List.flatMap_cons]
    exact All₂.append h (all₂_flat hl)

theorem get_map_eq {α β : Type} {f : α → β} {l l' : List α} (h : l'.map f = l.map f) {i : Nat} {a b : α} (ha : l[i]? = some a) (hb : l'[i]? = some b) : f b = f a := by
  have := congrArg (fun m => m[i]?) h
  simpa [List.getElem?_map, ha, hb] using this

/-- **C109**: the document leaves no choice: two placements of the same elements are the same. -/
theorem C109_one_placement (ns : Option String) (d d' : CalsDoc) (h : d.SameElements d') (hp : d.Placed ns) (hp' : d'.Placed ns) :
    d'.entries.map (·.2.box) = d.entries.map (·.2.box) := by
  have hrows : d'.rows.map (fun r => (r.1, r.2.node, r.2.entries.map (·.node))) = d.rows.map (fun r => (r.1, r.2.node, r.2.entries.map (·.node))) := by
    have := congrArg (fun l => l.flatMap (fun b : Node × List (Node × List Node) => b.2.map (fun r => (b.1, r)))) h.2.2.2
    simpa [CalsDoc.rows, List.flatMap_map, List.map_flatMap, List.map_map, Function.comp_def] using this
  have hl : ∀ (d : CalsDoc), d.Placed ns → Leftmost (d.entries.map (·.2.box)) := by
    intro d hp
    refine ⟨?_, List.pairwise_map.mpr hp.disjoint, ?_⟩
    · intro b hb
      obtain ⟨e, he, rfl⟩ := List.mem_map.mp hb
      exact hp.valid e he
    · intro pre b post e x h1 h2
      obtain ⟨pre', r, e1, e2, e3⟩ := List.map_eq_append_iff.mp e
      obtain ⟨e', post', rfl, rfl, e5⟩ := List.map_eq_cons_iff.mp e3
      obtain ⟨a, ha, hin⟩ := hp.leftmost pre' e' post' e1 x h1 h2
      subst e2
      exact ⟨_, List.mem_map_of_mem ha, hin⟩
  refine boxes_unique _ _ [] ?_ (by simpa using hl d' hp') (by simpa using hl d hp)
  refine All₂.map_left (All₂.map_right ?_)
  refine all₂_flat (all₂_pointwise _ _ (by simpa using congrArg List.length hrows) ?_)
  intro i r' r hr' hr
  have e := get_map_eq hrows hr hr'
  simp only [Prod.mk.injEq] at e
  refine All₂.map_left (All₂.map_right ?_)
  refine all₂_pointwise _ _ (by simpa using congrArg List.length e.2.2) ?_
  intro j a' a ha' ha
  have en : a'.node = a.node := get_map_eq e.2.2 ha ha'
  have m : (r.1, a) ∈ d.entries := List.mem_flatMap.mpr ⟨r, List.mem_of_getElem? hr, List.mem_map_of_mem (List.mem_of_getElem? ha)⟩
  have m' : (r'.1, a') ∈ d'.entries := List.mem_flatMap.mpr ⟨r', List.mem_of_getElem? hr', List.mem_map_of_mem (List.mem_of_getElem? ha')⟩
  have g1 := hp.spans _ m
  have g2 := hp'.spans _ m'
  simp only [en] at g1 g2
  have u1 := spansColumns_unique g1.1 g2.1
  have u2 := spansRows_unique g1.2 g2.2
  have y1 := hp.starts i r hr a (List.mem_of_getElem? ha)
  have y2 := hp'.starts i r' hr' a' (List.mem_of_getElem? ha')
  unfold SameSize
  simp only
  omega

/-! ### Formex -/

theorem FmxDoc.leftmost_boxes {ns cals : Option String} {w : Nat} {d : FmxDoc} (hp : d.Placed ns cals w) : Leftmost (d.drawn.map (·.2.2)) := by
  refine ⟨?_, List.pairwise_map.mpr hp.disjoint, ?_⟩
  · intro b hb
    obtain ⟨e, he, rfl⟩ := List.mem_map.mp hb
    exact hp.valid e he
  · intro pre b post e x h1 h2
    obtain ⟨pre', r, e1, e2, e3⟩ := List.map_eq_append_iff.mp e
    obtain ⟨e', post', rfl, rfl, e5⟩ := List.map_eq_cons_iff.mp e3
    obtain ⟨a, ha, hin⟩ := hp.leftmost pre' e' post' e1 x h1 h2
    subst e2
    exact ⟨_, List.mem_map_of_mem ha, hin⟩

theorem same_width_unique {ns cals : Option String} {w : Nat} {d d' : FmxDoc} (h : d.SameElements d')
    (hw : ∀ l ∈ d.all, l.sort ≠ .row → l.cells.map (·.node) = [l.node]) (hnote : ∀ l ∈ d.notes, l.sort ≠ .row) (hp : d.Placed ns cals w) (hp' : d'.Placed ns cals w) :
    d'.drawn.map (·.2.2) = d.drawn.map (·.2.2) := by
  have hall : d'.all.map (fun l => (l.sort, l.node, l.level, l.cells.map (·.node))) = d.all.map (fun l => (l.sort, l.node, l.level, l.cells.map (·.node))) := by
    unfold FmxDoc.all
    rw [List.map_append, List.map_append, h.2.2.1, h.2.2.2]
  refine boxes_unique _ _ [] ?_ (by simpa using FmxDoc.leftmost_boxes hp') (by simpa using FmxDoc.leftmost_boxes hp)
  refine All₂.map_left (All₂.map_right ?_)
  refine all₂_flat (all₂_pointwise _ _ (by simpa using congrArg List.length hall) ?_)
  intro i l' l hl' hl
  have e := get_map_eq hall hl hl'
  simp only [Prod.mk.injEq] at e
  obtain ⟨es, en, _, ec⟩ := e
  have ml := List.mem_of_getElem? hl
  have ml' := List.mem_of_getElem? hl'
  have hlen : l'.cells.length = l.cells.length := by simpa using congrArg List.length ec
  have hline : l ∈ d.lines ∧ l' ∈ d'.lines ∨ l ∈ d.notes ∧ l' ∈ d'.notes := by
    have hll : d'.lines.length = d.lines.length := by simpa using congrArg List.length h.2.2.1
    unfold FmxDoc.all at hl hl'
    by_cases hi : i < d.lines.length
    · rw [List.getElem?_append_left hi] at hl
      rw [List.getElem?_append_left (by omega)] at hl'
      exact .inl ⟨List.mem_of_getElem? hl, List.mem_of_getElem? hl'⟩
    · rw [List.getElem?_append_right (by omega)] at hl
      rw [List.getElem?_append_right (by omega)] at hl'
      exact .inr ⟨List.mem_of_getElem? hl, List.mem_of_getElem? hl'⟩
  -- the empty places at the left
  have hbefore : l'.before.length = l.before.length := by
    rcases hline with ⟨g, g'⟩ | ⟨g, g'⟩
    · by_cases hs : l.sort = .row
      · rw [(hp.rows l g hs).1, (hp'.rows l' g' (by rw [es]; exact hs)).1]
      · have hc := hw l ml hs
        have hs' : l'.sort ≠ .row := by rw [es]; exact hs
        cases hcl : l.cells with
        | nil => rw [hcl] at hc; cases hc
        | cons c cs =>
          cases hcl' : l'.cells with
          | nil => rw [hcl, hcl'] at hlen; cases hlen
          | cons c' cs' =>
            obtain ⟨a, b, t1, t2, t3, _⟩ := hp.titles l g hs c (by rw [hcl]; simp)
            obtain ⟨a', b', t1', t2', t3', _⟩ := hp'.titles l' g' hs' c' (by rw [hcl']; simp)
            rw [en] at t1'
            have := toldNumber_unique t1 t1'
            omega
    · rw [(hp.notes l g).1, (hp'.notes l' g').1]
  have hy : ∀ x ∈ l.drawn, x.2.min.y = (i : Int) + 1 := hp.starts i l hl
  have hy' : ∀ x ∈ l'.drawn, x.2.min.y = (i : Int) + 1 := hp'.starts i l' hl'
  refine All₂.map_left (All₂.map_right ?_)
  have ha : l.after = [] := hp.openEnd l ml
  have ha' : l'.after = [] := hp'.openEnd l' ml'
  unfold DocLine.drawn at hy hy' ⊢
  rw [ha] at hy ⊢
  rw [ha'] at hy' ⊢
  simp only [List.map_nil, List.append_nil, List.mem_append] at hy hy' ⊢
  refine All₂.append ?_ ?_
  · refine All₂.map_left (All₂.map_right (all₂_pointwise _ _ hbefore ?_))
    intro j b' b hb' hb
    have m := List.mem_of_getElem? hb
    have m' := List.mem_of_getElem? hb'
    have y1 := hy (none, b) (.inl (List.mem_map_of_mem m))
    have y2 := hy' (none, b') (.inl (List.mem_map_of_mem m'))
    have p1 : b.max = b.min := by
      rcases hline with ⟨g, _⟩ | ⟨g, _⟩
      · exact hp.places l g b m
      · rw [(hp.notes l g).1] at m; cases m
    have p2 : b'.max = b'.min := by
      rcases hline with ⟨_, g⟩ | ⟨_, g⟩
      · exact hp'.places l' g b' m'
      · rw [(hp'.notes l' g).1] at m'; cases m'
    unfold SameSize
    simp only at y1 y2 ⊢
    rw [p1, p2]
    omega
  · refine All₂.map_left (All₂.map_right (all₂_pointwise _ _ hlen ?_))
    intro j c' c hc' hc
    have m := List.mem_of_getElem? hc
    have m' := List.mem_of_getElem? hc'
    have y1 := hy (some c.node, c.box) (.inr (List.mem_map_of_mem (f := fun c : DocCell => (some c.node, c.box)) m))
    have y2 := hy' (some c'.node, c'.box) (.inr (List.mem_map_of_mem (f := fun c : DocCell => (some c.node, c.box)) m'))
    have ecn : c'.node = c.node := get_map_eq ec hc hc'
    unfold SameSize
    simp only at y1 y2 ⊢
    rcases hline with ⟨g, g'⟩ | ⟨g, g'⟩
    · by_cases hs : l.sort = .row
      · have k1 := (hp.rows l g hs).2 c m
        have k2 := (hp'.rows l' g' (by rw [es]; exact hs)).2 c' m'
        rw [ecn] at k2
        have u1 := cellColumns_unique k1.1 k2.1
        have u2 := cellRows_unique k1.2 k2.2
        omega
      · obtain ⟨a, b, t1, t2, t3, t4, t5⟩ := hp.titles l g hs c m
        obtain ⟨a', b', t1', t2', t3', t4', t5'⟩ := hp'.titles l' g' (by rw [es]; exact hs) c' m'
        rw [en] at t1' t2'
        have := toldNumber_unique t1 t1'
        have := toldNumber_unique t2 t2'
        omega
    · have k1 := (hp.notes l g).2 c m
      have k2 := (hp'.notes l' g').2 c' m'
      omega

/-- the document without its notes -/
def withoutNotes (d : FmxDoc) : FmxDoc := { d with notes := [] }

theorem placed_withoutNotes {ns cals : Option String} {w : Nat} {d : FmxDoc} (hp : d.Placed ns cals w) (w' : Nat) : (withoutNotes d).Placed ns cals w' := by
  have hall : (withoutNotes d).all = d.lines := by simp [withoutNotes, FmxDoc.all]
  have hdr : d.drawn = (withoutNotes d).drawn ++ d.notes.flatMap (fun l => l.drawn.map (fun e => (l, e))) := by
    unfold FmxDoc.drawn
    rw [hall]
    unfold FmxDoc.all
    rw [List.flatMap_append]
  have hsub : ∀ e ∈ (withoutNotes d).drawn, e ∈ d.drawn := fun e he => by rw [hdr]; exact List.mem_append_left _ he
  refine ⟨?_, hp.first, ?_, hp.rows, hp.titles, (fun l hl => nomatch hl), hp.places, fun e he => hp.valid e (hsub e he), ?_, ?_⟩
  · intro l hl
    rw [hall] at hl
    exact hp.openEnd l (List.mem_append_left _ hl)
  · intro i l hl
    rw [hall] at hl
    refine hp.starts i l ?_
    unfold FmxDoc.all
    rw [List.getElem?_append_left (List.getElem?_eq_some_iff.mp hl).1]
    exact hl
  · have := hp.disjoint
    rw [hdr] at this
    exact (List.pairwise_append.mp this).1
  · intro pre e post he
    exact hp.leftmost pre e (post ++ d.notes.flatMap (fun l => l.drawn.map (fun e => (l, e)))) (by rw [hdr, he]; simp)

theorem isMax_unique {n m : Nat} {l : List Int} (h : IsMax n l) (h' : IsMax m l) : n = m := by
  have := h.2 _ h'.1
  have := h'.2 _ h.1
  omega

/-- **C110**: the document leaves no choice: two placements of the same elements are the same, with the same number of columns. -/
theorem C110_one_placement (ns cals : Option String) (outer : Nat) (parent : Option Node) (d d' : FmxDoc) (w w' : Nat) (h : d.SameElements d') (hn : d.Nested ns cals outer parent)
    (hp : d.Placed ns cals w) (hp' : d'.Placed ns cals w') (hw : d.Width w) (hw' : d'.Width w') :
    w' = w ∧ d'.drawn.map (·.2.2) = d.drawn.map (·.2.2) := by
  have hlines : (withoutNotes d').drawn.map (·.2.2) = (withoutNotes d).drawn.map (·.2.2) := by
    refine same_width_unique (ns := ns) (cals := cals) (w := w) ⟨h.1, h.2.1, h.2.2.1, rfl⟩ ?_ (fun l hl => nomatch hl) (placed_withoutNotes hp w) (placed_withoutNotes hp' w)
    intro l hl
    refine hn.whole l ?_
    simp only [withoutNotes, FmxDoc.all, List.append_nil] at hl
    exact List.mem_append_left _ hl
  have hww : w' = w := by
    have e : ∀ d : FmxDoc, d.lines.flatMap (fun l => l.drawn.map (·.2.max.x)) = ((withoutNotes d).drawn.map (·.2.2)).map (·.max.x) := by
      intro d
      simp [withoutNotes, FmxDoc.drawn, FmxDoc.all, List.map_flatMap, List.map_map, Function.comp_def]
    unfold FmxDoc.Width at hw hw'
    rw [e, h.2.1, hlines, ← e] at hw'
    exact isMax_unique hw' hw
  subst hww
  refine ⟨rfl, same_width_unique h hn.whole ?_ hp hp'⟩
  intro l hl e
  have := hn.notes.2 l hl
  rw [e] at this; cases this

/-- not vacuous: the examples of C109 and C110 have a placement, hence only one -/
example : ragDemo.SameElements ragDemo ∧ ragDemo.Placed none := ⟨⟨rfl, rfl, rfl, rfl⟩, ragDemo_placed⟩

example : fragDemo.SameElements fragDemo ∧ fragDemo.Nested none (some "c") 0 (some fragTbl) ∧ fragDemo.Placed none (some "c") 4 ∧ fragDemo.Width 4 :=
  ⟨⟨rfl, rfl, rfl, rfl⟩, fragDemo_nested, fragDemo_placed, by decide +kernel, by decide +kernel⟩

end Benker
