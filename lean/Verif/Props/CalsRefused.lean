import Verif.Props.CalsDoc

/-! C74: the CALS parser refuses the tables which do not follow the rules of CALS. -/

namespace Benker
open PyM Cals CalsSpec

variable {pc : CalsP.Config}

/-! ### what is read -/

/-- the statement succeeds from some state -/
def Succeeds {σ α : Type} (m : PyM σ α) : Prop := ∃ s a s', m s = (.ok a, s')

theorem succeeds_bind {σ α β : Type} {m : PyM σ α} {k : α → PyM σ β} (h : Succeeds (m >>= k)) : Succeeds m ∧ ∃ a, Succeeds (k a) := by
  obtain ⟨s, b, s', h⟩ := h
  rw [bind_run] at h
  cases hm : m s with
  | mk r s1 =>
    rw [hm] at h
    cases r with
    | error e => cases h
    | ok a => exact ⟨⟨s, a, s1, hm⟩, a, s1, b, s', h⟩

theorem succeeds_lift {σ α β : Type} {m : Except PyErr α} {k : α → PyM σ β} (h : Succeeds (lift m >>= k)) : ∃ a, m = .ok a ∧ Succeeds (k a) := by
  obtain ⟨s, b, s', h⟩ := h
  rw [bind_run, lift_run] at h
  cases m with
  | error e => cases h
  | ok a => exact ⟨a, rfl, s, b, s', h⟩

theorem succeeds_walkList {p : Option Node} {ns : List Node} (h : Succeeds (CalsP.loop pc 1 (walkList (CalsP.selected pc) p ns))) :
    ∀ n ∈ ns, Succeeds (CalsP.loop pc 1 (walk (CalsP.selected pc) p n)) := by
  induction ns with
  | nil => intro n hn; cases hn
  | cons a ns ih =>
    rw [walkList, CalsP.loop_append, CalsP.depth_walk] at h
    obtain ⟨h1, _, h2⟩ := succeeds_bind h
    intro n hn
    rcases List.mem_cons.mp hn with rfl | hn
    · exact h1
    · exact ih h2 n hn

/-- an element which is not a table is treated, and so are its children -/
theorem succeeds_walk {p : Option Node} {n : Node} {tag : QName} (hn : n.tag? = some tag) (ht : tag ≠ pc.q "table")
    (h : Succeeds (CalsP.loop pc 1 (walk (CalsP.selected pc) p n))) :
    (CalsP.selected pc tag = true → Succeeds (CalsP.onStart pc p n)) ∧
    Succeeds (CalsP.loop pc 1 (walkList (CalsP.selected pc) (some n) n.children)) := by
  have hd : ∀ b, CalsP.newDepth pc 1 ⟨b, n, p⟩ = 1 := by
    intro b
    simp only [CalsP.newDepth, hn, Option.some.injEq, if_neg ht]
  by_cases hsel : CalsP.selected pc tag = true
  · have hw : walk (CalsP.selected pc) p n = [⟨true, n, p⟩] ++ (walkList (CalsP.selected pc) (some n) n.children ++ [⟨false, n, p⟩]) := by
      cases n with
      | elem t a x cs tl =>
        simp only [Node.tag?, Option.some.injEq] at hn
        subst hn
        unfold walk
        simp [hsel, Node.children]
      | pi => cases hn
      | comment => cases hn
    have hda : CalsP.depthAfter pc 1 [⟨true, n, p⟩] = 1 := hd true
    rw [hw, CalsP.loop_append, hda, loop_one _ _ (hd true), CalsP.loop_append, CalsP.depth_walkList] at h
    obtain ⟨h1, _, h2⟩ := succeeds_bind h
    obtain ⟨h2, _⟩ := succeeds_bind h2
    exact ⟨fun _ => h1, h2⟩
  · have hw : walk (CalsP.selected pc) p n = walkList (CalsP.selected pc) (some n) n.children := by
      cases n with
      | elem t a x cs tl =>
        simp only [Node.tag?, Option.some.injEq] at hn
        subst hn
        unfold walk
        simp [hsel, Node.children]
      | pi => cases hn
      | comment => cases hn
    rw [hw] at h
    exact ⟨fun h' => absurd h' hsel, h⟩

theorem inTable_succeeds {root p c : Node} (h : Succeeds (CalsP.loop pc 1 (walkList (CalsP.selected pc) (some root) root.children)))
    (hi : InTable pc.ns root p c) : Succeeds (CalsP.loop pc 1 (walk (CalsP.selected pc) (some p) c)) := by
  induction hi with
  | child c hc => exact succeeds_walkList h c hc
  | deeper p q c _ hq hc ih =>
    cases ht : q.tag? with
    | none =>
      cases q with
      | elem => cases ht
      | pi => exact absurd hc (by simp [Node.children])
      | comment => exact absurd hc (by simp [Node.children])
    | some tag =>
      have := (succeeds_walk ht (fun e => hq (by rw [ht, e]; rfl)) ih).2
      exact succeeds_walkList this c hc

theorem onStart_of {root p c : Node} {name : String} (h : Succeeds (CalsP.loop pc 1 (walkList (CalsP.selected pc) (some root) root.children)))
    (hi : InTable pc.ns root p c) (hc : c.tag? = some ⟨pc.ns, name⟩) (hname : name ∈ ["tgroup", "colspec", "thead", "tfoot", "tbody", "row", "entry"]) :
    Succeeds (CalsP.onStart pc (some p) c) := by
  refine (succeeds_walk hc ?_ (inTable_succeeds h hi)).1 (CalsP.selected_q name (List.mem_cons_of_mem _ hname))
  intro e
  have : name = "table" := congrArg QName.name e
  subst this
  revert hname; decide

theorem localname_of {p : Node} {l : List String} (h : CalsP.localname p ∈ l) (hne : "" ∉ l) : ∃ t, p.tag? = some t ∧ t.name ∈ l := by
  unfold CalsP.localname at h
  cases ht : p.tag? with
  | none => rw [ht] at h; exact absurd h hne
  | some t => rw [ht] at h; exact ⟨t, rfl, h⟩

/-- an entry which is accepted covers a column and a row at least -/
theorem entry_ok {p : Option Node} {c : Node} (ho : Succeeds (CalsP.onStart pc p c)) (hc : c.tag? = some ⟨pc.ns, "entry"⟩) :
    ∃ w h pos, CalsP.entrySpan pc pos c = .ok (w, h) ∧ 1 ≤ w ∧ 1 ≤ h := by
  have e0 : CalsP.onStart pc p c = (do PState.nextCol; CalsP.parseEntry pc c) := by
    simp [CalsP.onStart, hc, CalsP.Config.q]
  rw [e0] at ho
  obtain ⟨_, _, ho⟩ := succeeds_bind ho
  unfold CalsP.parseEntry at ho
  obtain ⟨_, s0, ho⟩ := succeeds_bind ho
  obtain ⟨⟨w, h⟩, hspan, ho⟩ := succeeds_lift ho
  simp only at ho
  obtain ⟨_, ⟨y, nat⟩, ho⟩ := succeeds_bind ho
  simp only at ho
  refine ⟨w, h, s0.colPos, hspan, ?_⟩
  have hi : Succeeds (Table.insertCell .row y (some (Content.seq (CalsP.entryContent c))) (some (CalsP.entryStyles pc c)) nat w h) := by
    obtain ⟨s, a, s', ho⟩ := ho
    unfold PState.onTable at ho
    split at ho
    · cases ho
    · rename_i t ht
      cases hm : Table.insertCell .row y (some (Content.seq (CalsP.entryContent c))) (some (CalsP.entryStyles pc c)) nat w h t with
      | mk r t' =>
        rw [hm] at ho
        simp only [Prod.mk.injEq] at ho
        exact ⟨t, a, t', by rw [hm, ho.1]⟩
  unfold Table.insertCell at hi
  obtain ⟨_, v, hi⟩ := succeeds_bind hi
  obtain ⟨k, _, hi⟩ := succeeds_lift hi
  simp only at hi
  obtain ⟨cell, hcell, _⟩ := succeeds_lift hi
  unfold Cell.new at hcell
  split at hcell
  · cases hcell
  · rename_i b hb
    unfold Box.make at hb
    split at hb
    · rename_i hb'
      omega
    · cases hb

/-- **C74**: the tables which the CALS parser accepts follow the rules: in every accepted table the frame is one of CALS, the `colspec` are in the table or its group, the rows are
in a `thead`, `tbody` or `tfoot`, the columns of an entry are numbered in increasing order and its number of rows is not negative - whatever the depth of
these elements, except inside nested tables.  Any other table is refused by an exception. -/
theorem C74_accepted_is_regular (parent : Option Node) (root : Node) (hroot : root.tag? = some ⟨pc.ns, "table"⟩) (s : PState) (r : Option (Table Content))
    (h : eval (CalsP.parseTable pc parent root) s = .ok r) : Regular pc.ns root := by
  have hs : Succeeds (do
      CalsP.parseTableElem pc root
      CalsP.loop pc 1 (walkList (CalsP.selected pc) (some root) root.children)
      PState.onTable CalsP.fillHoles
      let s ← PyM.get
      pure s.table) := by
    unfold eval at h
    rw [CalsP.parseTable_run parent hroot] at h
    refine ⟨PState.init, r, _, Prod.ext h rfl⟩
  obtain ⟨h1, _, h2⟩ := succeeds_bind hs
  obtain ⟨h2, _⟩ := succeeds_bind h2
  obtain ⟨st, h1, _⟩ := succeeds_lift h1
  refine ⟨?_, ?_, ?_, ?_, ?_, ?_, ?_⟩
  · intro f hf hne
    unfold CalsP.tableStyles at h1
    obtain ⟨st0, h0, _⟩ := Benker.bind_ok h1
    rw [show root.attr (pc.q "frame") = some f from hf] at h0
    unfold CalsP.getFrameStyles at h0
    simp only [if_neg hne] at h0
    split at h0
    · cases h0
    · rename_i hg
      unfold Dict.get? at hg
      rw [Option.map_eq_some_iff] at hg
      obtain ⟨⟨k, v⟩, hg, _⟩ := hg
      have m1 := List.mem_of_find?_eq_some hg
      have m2 := List.find?_some hg
      simp only [decide_eq_true_eq] at m2
      subst m2
      exact List.mem_map_of_mem (f := Prod.fst) m1
  · intro p c hi hc
    have ho := onStart_of h2 hi hc (by simp)
    have e0 : CalsP.onStart pc (some p) c = (do PState.nextCol; CalsP.parseColspec pc (some p) c) := by
      simp [CalsP.onStart, hc, CalsP.Config.q]
    rw [e0] at ho
    obtain ⟨_, _, ho⟩ := succeeds_bind ho
    unfold CalsP.parseColspec at ho
    obtain ⟨_, ho, _⟩ := succeeds_lift ho
    unfold CalsP.colspecParent at ho
    simp only at ho
    split at ho
    · rename_i hl
      exact localname_of (by simpa using hl) (by decide)
    · cases ho
  · intro p c x hi hc hx hne
    have ho := onStart_of h2 hi hc (by simp)
    have e0 : CalsP.onStart pc (some p) c = (do PState.nextCol; CalsP.parseColspec pc (some p) c) := by
      simp [CalsP.onStart, hc, CalsP.Config.q]
    rw [e0] at ho
    obtain ⟨_, _, ho⟩ := succeeds_bind ho
    unfold CalsP.parseColspec at ho
    obtain ⟨_, _, ho⟩ := succeeds_lift ho
    obtain ⟨_, s1, ho⟩ := succeeds_bind ho
    obtain ⟨n, ho, _⟩ := succeeds_lift ho
    unfold CalsP.colspecNum at ho
    rw [show c.attr (pc.q "colnum") = some x from hx] at ho
    simp only [if_neg hne] at ho
    exact ⟨n, pyInt_ok ho⟩
  · intro p c hi hc
    have ho := onStart_of h2 hi hc (by simp)
    have e0 : CalsP.onStart pc (some p) c = (do PState.nextRow; CalsP.parseRow pc (some p) c) := by
      simp [CalsP.onStart, hc, CalsP.Config.q]
    rw [e0] at ho
    obtain ⟨_, _, ho⟩ := succeeds_bind ho
    unfold CalsP.parseRow at ho
    obtain ⟨_, ho, _⟩ := succeeds_lift ho
    unfold CalsP.rowLooks at ho
    obtain ⟨x, ho, _⟩ := Benker.bind_ok ho
    have ho : ∃ k, CalsP.rowNature (CalsP.localname p) = .ok k := by
      cases hk : CalsP.rowNature (CalsP.localname p) with
      | ok k => exact ⟨k, rfl⟩
      | error e => simp [hk] at ho
    obtain ⟨k, ho⟩ := ho
    obtain ⟨t, ht, hk⟩ := kindOf_iff ho
    refine ⟨t, ht, ?_⟩
    simp only [List.mem_cons, Prod.mk.injEq, List.not_mem_nil, or_false] at hk ⊢
    rcases hk with hk | hk | hk
    · exact .inl hk.1
    · exact .inr (.inl hk.1)
    · exact .inr (.inr hk.1)
  · intro p c a x hi hc ha hx
    obtain ⟨w, hh, pos, hspan, _⟩ := entry_ok (onStart_of h2 hi hc (by simp)) hc
    unfold CalsP.entrySpan at hspan
    obtain ⟨k1, hk1, hspan⟩ := Benker.bind_ok hspan
    obtain ⟨k2, hk2, hspan⟩ := Benker.bind_ok hspan
    simp only [List.mem_cons, List.not_mem_nil, or_false] at ha
    rcases ha with rfl | rfl
    · rw [show c.attr (pc.q "namest") = some x from hx] at hk1
      obtain ⟨k, _, hk⟩ := firstInt_ok hk1
      exact ⟨k, hk⟩
    · rw [show c.attr (pc.q "nameend") = some x from hx] at hk2
      obtain ⟨k, _, hk⟩ := firstInt_ok hk2
      exact ⟨k, hk⟩
  · intro p c x y hi hc hx hy
    obtain ⟨w, hh, pos, hspan, hw, _⟩ := entry_ok (onStart_of h2 hi hc (by simp)) hc
    unfold CalsP.entrySpan at hspan
    obtain ⟨k1, hk1, hspan⟩ := Benker.bind_ok hspan
    obtain ⟨k2, hk2, hspan⟩ := Benker.bind_ok hspan
    obtain ⟨k3, hk3, hspan⟩ := Benker.bind_ok hspan
    have e := congrArg Prod.fst (Except.ok.inj hspan)
    simp only at e
    rw [show c.attr (pc.q "namest") = some x from hx] at hk1
    rw [show c.attr (pc.q "nameend") = some y from hy] at hk2
    obtain ⟨a, ea, hka⟩ := firstInt_ok hk1
    obtain ⟨b, eb, hkb⟩ := firstInt_ok hk2
    exact ⟨a, b, hka, hkb, by omega⟩
  · intro p c x hi hc hx
    obtain ⟨w, hh, pos, hspan, _, hw⟩ := entry_ok (onStart_of h2 hi hc (by simp)) hc
    unfold CalsP.entrySpan at hspan
    obtain ⟨k1, hk1, hspan⟩ := Benker.bind_ok hspan
    obtain ⟨k2, hk2, hspan⟩ := Benker.bind_ok hspan
    obtain ⟨k3, hk3, hspan⟩ := Benker.bind_ok hspan
    have e := congrArg Prod.snd (Except.ok.inj hspan)
    simp only at e
    rw [show c.attr (pc.q "morerows") = some x from hx] at hk3
    exact ⟨k3, pyInt_ok hk3, by omega⟩

/-- the table of `docDemo` is accepted, hence it is regular; and a row which is straight in the group is refused -/
example : (∃ r, eval (CalsP.parseTable ⟨none, ['m', 'm'], id⟩ none docDemo.table) PState.init = .ok r) ∧
    (eval (CalsP.parseTable ⟨none, ['m', 'm'], id⟩ none (.elem ⟨none, "table"⟩ [] none [docR2] none)) PState.init).toOption.isNone = true := by
  refine ⟨?_, by decide +kernel⟩
  have h : (eval (CalsP.parseTable ⟨none, ['m', 'm'], id⟩ none docDemo.table) PState.init).toOption.isSome = true := by decide +kernel
  revert h
  cases eval (CalsP.parseTable ⟨none, ['m', 'm'], id⟩ none docDemo.table) PState.init with
  | ok r => exact fun _ => ⟨r, rfl⟩
  | error e => intro h; cases h

end Benker
