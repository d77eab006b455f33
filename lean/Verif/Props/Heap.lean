import Verif.Model.Heap
import Verif.Lemmas.Dict

/-! Property C16: no two styled objects share their style dictionary. -/

namespace Benker.Heap

/-- dictionaries of objects are allocated and pairwise distinct; `avoid` are other addresses never given to an object -/
structure Inv (avoid : List Nat) (s : State) : Prop where
  nodup : s.objs.Nodup
  objs_lt : ∀ a ∈ s.objs, a < s.heap.length
  avoid_lt : ∀ a ∈ avoid, a < s.heap.length
  avoid_objs : ∀ a ∈ avoid, a ∉ s.objs

theorem inv_heap {av : List Nat} {s : State} (h : Inv av s) (heap : List Styles) (vars : List Nat)
    (hl : s.heap.length ≤ heap.length) : Inv av ⟨heap, s.objs, vars⟩ :=
  ⟨h.nodup, fun a ha => Nat.lt_of_lt_of_le (h.objs_lt a ha) hl,
   fun a ha => Nat.lt_of_lt_of_le (h.avoid_lt a ha) hl, h.avoid_objs⟩

theorem inv_alloc {av : List Nat} {s : State} (h : Inv av s) (d : Styles) : Inv av (s.alloc d) := by
  refine ⟨?_, ?_, ?_, ?_⟩
  · simp only [State.alloc]
    rw [List.nodup_append]
    refine ⟨h.nodup, by simp, ?_⟩
    intro a ha b hb
    simp only [List.mem_singleton] at hb
    have := h.objs_lt a ha
    omega
  · intro a ha
    simp only [State.alloc, List.mem_append, List.mem_singleton, List.length_append, List.length_singleton] at *
    rcases ha with ha | ha
    · have := h.objs_lt a ha; omega
    · omega
  · intro a ha
    have := h.avoid_lt a ha
    simp only [State.alloc, List.length_append, List.length_singleton]; omega
  · intro a ha hm
    have := h.avoid_lt a ha
    simp only [State.alloc, List.mem_append, List.mem_singleton] at hm
    rcases hm with hm | hm
    · exact h.avoid_objs a ha hm
    · omega

theorem nodup_set {l : List Nat} (hl : l.Nodup) (i x : Nat) (hx : x ∉ l) : (l.set i x).Nodup := by
  induction l generalizing i with
  | nil => simp
  | cons a l ih =>
    obtain ⟨h1, h2⟩ := List.nodup_cons.mp hl
    cases i with
    | zero =>
      simp only [List.set_cons_zero, List.nodup_cons]
      exact ⟨fun h => hx (by simp [h]), h2⟩
    | succ i =>
      simp only [List.set_cons_succ, List.nodup_cons]
      refine ⟨?_, ih h2 i (fun h => hx (by simp [h]))⟩
      intro hm
      rcases List.mem_or_eq_of_mem_set hm with hm | hm
      · exact h1 hm
      · exact hx (by simp [hm])

theorem inv_assign {av : List Nat} {s : State} (h : Inv av s) (o : Nat) (d : Styles) :
    Inv av ⟨s.heap ++ [d], s.objs.set o s.heap.length, s.vars⟩ := by
  have hfresh : s.heap.length ∉ s.objs := fun hm => by have := h.objs_lt _ hm; omega
  refine ⟨nodup_set h.nodup _ _ hfresh, ?_, ?_, ?_⟩
  · intro a ha
    simp only [List.length_append, List.length_singleton]
    rcases List.mem_or_eq_of_mem_set ha with ha | ha
    · have := h.objs_lt a ha; omega
    · omega
  · intro a ha
    have := h.avoid_lt a ha
    simp only [List.length_append, List.length_singleton]; omega
  · intro a ha hm
    rcases List.mem_or_eq_of_mem_set hm with hm | hm
    · exact h.avoid_objs a ha hm
    · have := h.avoid_lt a ha; omega

theorem inv_step {av : List Nat} {s : State} (h : Inv av s) (op : Op) : Inv av (step s op) := by
  cases op with
  | mkDict d => exact inv_heap h _ _ (by simp)
  | read o => simp only [step]; split <;> first | exact h | exact inv_heap h _ _ (by simp)
  | create v =>
    cases v with
    | none => exact inv_alloc h _
    | some v => simp only [step]; split <;> first | exact h | exact inv_alloc h _
  | assign o v =>
    cases v with
    | none => exact inv_assign h _ _
    | some v => simp only [step]; split <;> first | exact h | exact inv_assign h _ _
  | transform o => simp only [step]; split <;> first | exact h | exact inv_alloc h _
  | merge f r => simp only [step]; split <;> first | exact h | exact inv_alloc h _
  | edit v k x => simp only [step]; split <;> first | exact h | exact inv_heap h _ _ (by simp)
  | clear v => simp only [step]; split <;> first | exact h | exact inv_heap h _ _ (by simp)

theorem inv_foldl {av : List Nat} (ops : List Op) : ∀ s, Inv av s → Inv av (ops.foldl step s) := by
  induction ops with
  | nil => intro s h; exact h
  | cons op ops ih => intro s h; exact ih _ (inv_step h op)

theorem inv_run (ops : List Op) : Inv [] (run ops) :=
  inv_foldl ops _ ⟨by simp [init], by simp [init], by simp, by simp⟩

/-- an in-place modification through a variable -/
def IsEdit (v : Nat) : Op → Prop
  | .edit w _ _ => w = v
  | .clear w => w = v
  | _ => False

theorem edit_frame {s : State} {v a : Nat} (hv : s.vars[v]? = some a) {op : Op} (hop : IsEdit v op) (o : Nat)
    (ho : s.objs[o]? ≠ some a) : (step s op).view o = s.view o := by
  have key : ∀ f : Styles → Styles, (State.view ⟨s.heap.modify a f, s.objs, s.vars⟩ o) = s.view o := by
    intro f
    unfold State.view
    simp only
    cases hb : s.objs[o]? with
    | none => rfl
    | some b =>
      have hne : a ≠ b := by intro e; subst e; exact ho hb
      simp [List.getElem?_modify, hne]
  cases op <;> simp only [IsEdit] at hop
  all_goals (subst hop; simp only [step, hv]; exact key _)

/-- **C16.** After any history: editing in place the dictionary of an object (reached through `obj.styles`) leaves the
styles of all other objects unchanged. -/
theorem C16_edit_isolated (ops : List Op) (o o' v a : Nat) (hne : o ≠ o')
    (ho : (run ops).objs[o]? = some a) (hv : (run ops).vars[v]? = some a)
    (op : Op) (hop : IsEdit v op) :
    (step (run ops) op).view o' = (run ops).view o' := by
  refine edit_frame hv hop o' ?_
  intro ho'
  have hnd := (inv_run ops).nodup
  obtain ⟨h1, h2⟩ := List.getElem?_eq_some_iff.mp ho
  obtain ⟨h3, h4⟩ := List.getElem?_eq_some_iff.mp ho'
  exact hne ((List.getElem_inj (h₀ := h1) (h₁ := h3) hnd).mp (h2.trans h4.symm))

/-- **C16.** After any history: a dictionary made by the caller is never shared with an object, whatever happens before and
after: editing it changes no object. -/
theorem C16_caller_dict (before after : List Op) (d : Styles) (op : Op)
    (hop : IsEdit (run before).vars.length op) (o : Nat) :
    let s := run (before ++ .mkDict d :: after)
    (step s op).view o = s.view o := by
  intro s
  have hs : s = after.foldl step (step (run before) (.mkDict d)) := by
    simp [s, run, List.foldl_append]
  have h0 : Inv [(run before).heap.length] (step (run before) (.mkDict d)) := by
    have h := inv_run before
    refine ⟨h.nodup, ?_, ?_, ?_⟩
    · intro a ha; have := h.objs_lt a ha; simp only [step, List.length_append, List.length_singleton]; omega
    · intro a ha; simp only [List.mem_singleton] at ha; simp only [step, List.length_append, List.length_singleton]; omega
    · intro a ha hm
      simp only [List.mem_singleton] at ha
      have := h.objs_lt a hm
      omega
  have hinv := inv_foldl after _ h0
  have hvars : ∀ (ops : List Op) (t : State) (v a : Nat), t.vars[v]? = some a → (ops.foldl step t).vars[v]? = some a := by
    intro ops
    induction ops with
    | nil => intro t v a h; exact h
    | cons op ops ih =>
      intro t v a h
      refine ih _ v a ?_
      have happ : ∀ x, (t.vars ++ [x])[v]? = some a := by
        intro x
        have hlt := (List.getElem?_eq_some_iff.mp h).1
        rw [List.getElem?_append_left hlt]; exact h
      cases op with
      | mkDict d => exact happ _
      | read o => simp only [step]; split <;> first | exact h | exact happ _
      | create w => cases w <;> simp only [step] <;> first | exact h | (split <;> exact h)
      | assign o w => cases w <;> simp only [step] <;> first | exact h | (split <;> exact h)
      | transform o => simp only [step]; split <;> exact h
      | merge f r => simp only [step]; split <;> exact h
      | edit w k x => simp only [step]; split <;> exact h
      | clear w => simp only [step]; split <;> exact h
  have hv : s.vars[(run before).vars.length]? = some (run before).heap.length := by
    rw [hs]; exact hvars after _ _ _ (by simp [step])
  refine edit_frame hv hop o ?_
  intro ho
  rw [hs] at ho
  exact hinv.avoid_objs _ (by simp) (List.mem_of_getElem? ho)

/-- **C16.** Building an object, assigning styles, transforming and merging never change what other objects show. -/
theorem C16_others_unchanged (ops : List Op) (op : Op) (o : Nat) (ho : o < (run ops).objs.length)
    (hop : match op with
      | .edit .. => False
      | .clear _ => False
      | .assign o' _ => o' ≠ o
      | _ => True) :
    (step (run ops) op).view o = (run ops).view o := by
  have hinv := inv_run ops
  generalize run ops = s at *
  have halt : s.objs[o] < s.heap.length := hinv.objs_lt _ (List.getElem_mem ho)
  have e : s.objs[o]? = some s.objs[o] := List.getElem?_eq_getElem ho
  have hheap : ∀ d vars, (State.view ⟨s.heap ++ [d], s.objs, vars⟩ o) = s.view o := by
    intro d vars
    simp only [State.view, e, Option.bind_eq_bind, Option.bind_some]
    rw [List.getElem?_append_left halt]
  have halloc : ∀ d, (s.alloc d).view o = s.view o := by
    intro d
    simp only [State.view, State.alloc, Option.bind_eq_bind]
    rw [List.getElem?_append_left ho, e]
    simp only [Option.bind_some]
    rw [List.getElem?_append_left halt]
  have hassign : ∀ o' d, o' ≠ o → (State.view ⟨s.heap ++ [d], s.objs.set o' s.heap.length, s.vars⟩ o) = s.view o := by
    intro o' d hne
    simp only [State.view, Option.bind_eq_bind]
    rw [List.getElem?_set_ne hne, e]
    simp only [Option.bind_some]
    rw [List.getElem?_append_left halt]
  cases op with
  | mkDict d => exact hheap _ _
  | read o' =>
    simp only [step]
    split
    · rfl
    · rfl
  | create v =>
    cases v with
    | none => exact halloc _
    | some v => simp only [step]; split <;> first | rfl | exact halloc _
  | assign o' v =>
    cases v with
    | none => exact hassign _ _ hop
    | some v => simp only [step]; split <;> first | rfl | exact hassign _ _ hop
  | transform o' => simp only [step]; split <;> first | rfl | exact halloc _
  | merge f r => simp only [step]; split <;> first | rfl | exact halloc _
  | edit => exact absurd hop id
  | clear => exact absurd hop id

/-- **C16.** What objects show right after being built or assigned: a copy of the given dictionary, `{}` for `None`; the
transformed cell shows the same styles as the original. -/
theorem C16_copy_content (ops : List Op) (v a : Nat) (hv : (run ops).vars[v]? = some a) (d : Styles)
    (hd : (run ops).heap[a]? = some d) (o : Nat) (ho : o < (run ops).objs.length) :
    (step (run ops) (.create (some v))).view (run ops).objs.length = some d ∧
    (step (run ops) (.create none)).view (run ops).objs.length = some [] ∧
    (step (run ops) (.assign o (some v))).view o = some d ∧
    (step (run ops) (.assign o none)).view o = some [] ∧
    (step (run ops) (.transform o)).view (run ops).objs.length = (run ops).view o := by
  have hinv := inv_run ops
  generalize run ops = s at *
  have e : s.objs[o]? = some s.objs[o] := List.getElem?_eq_getElem ho
  have halt : s.objs[o] < s.heap.length := hinv.objs_lt _ (List.getElem_mem ho)
  have e2 : s.heap[s.objs[o]]? = some s.heap[s.objs[o]] := List.getElem?_eq_getElem halt
  refine ⟨?_, ?_, ?_, ?_, ?_⟩
  · simp [step, hv, hd, State.alloc, State.view]
  · simp [step, State.alloc, State.view]
  · simp [step, hv, hd, State.view, ho]
  · simp [step, State.view, ho]
  · simp [step, e, e2, State.alloc, State.view]

/-- the keys of each dictionary are distinct, in every history where the caller makes genuine dictionaries -/
theorem wf_run (ops : List Op) (hops : ∀ d, Op.mkDict d ∈ ops → Dict.WF d) : ∀ d ∈ (run ops).heap, Dict.WF d := by
  have key : ∀ (ops : List Op) (s : State), (∀ d, Op.mkDict d ∈ ops → Dict.WF d) → (∀ d ∈ s.heap, Dict.WF d) →
      ∀ d ∈ (ops.foldl step s).heap, Dict.WF d := by
    intro ops
    induction ops with
    | nil => intro s _ h; exact h
    | cons op ops ih =>
      intro s ho h
      refine ih _ (fun d hd => ho d (List.mem_cons_of_mem _ hd)) ?_
      have hget : ∀ a : Nat, Dict.WF (s.heap[a]?.getD []) := by
        intro a
        cases e : s.heap[a]? with
        | none => exact Dict.wf_nil
        | some d => exact h d (List.mem_of_getElem? e)
      have happ : ∀ d : Styles, Dict.WF d → ∀ x ∈ s.heap ++ [d], Dict.WF x := by
        intro d hd x hx
        rcases List.mem_append.mp hx with hx | hx
        · exact h x hx
        · simp only [List.mem_singleton] at hx; subst hx; exact hd
      have hmod : ∀ (a : Nat) (f : Styles → Styles), (∀ d, Dict.WF d → Dict.WF (f d)) → ∀ x ∈ s.heap.modify a f, Dict.WF x := by
        intro a f hf x hx
        obtain ⟨i, hi, rfl⟩ := List.mem_iff_getElem.mp hx
        rw [List.getElem_modify]
        split
        · exact hf _ (h _ (List.getElem_mem _))
        · exact h _ (List.getElem_mem _)
      cases op with
      | mkDict d => exact happ d (ho d List.mem_cons_self)
      | read o => simp only [step]; split <;> exact h
      | create v =>
        cases v with
        | none => exact happ [] Dict.wf_nil
        | some v => simp only [step]; split <;> first | exact h | exact happ _ (hget _)
      | assign o v =>
        cases v with
        | none => exact happ [] Dict.wf_nil
        | some v => simp only [step]; split <;> first | exact h | exact happ _ (hget _)
      | transform o => simp only [step]; split <;> first | exact h | exact happ _ (hget _)
      | merge f r =>
        simp only [step]
        split
        · refine happ _ ?_
          have : ∀ (r : List Nat) (d : Styles), Dict.WF d → Dict.WF (r.foldl (fun d o => d.update ((s.view o).getD [])) d) := by
            intro r
            induction r with
            | nil => intro d hd; exact hd
            | cons o r ihr => intro d hd; exact ihr _ (Dict.wf_update hd _)
          exact this r _ (hget _)
        · exact h
      | edit w k x => simp only [step]; split <;> first | exact h | exact hmod _ _ (fun d hd => Dict.wf_set hd _ _)
      | clear w => simp only [step]; split <;> first | exact h | exact hmod _ _ (fun _ _ => Dict.wf_nil)
  exact key ops _ hops (by simp [init])

/-- **C16.** What a merged cell shows: for each style, the value of the last of the merged cells which has it. -/
theorem C16_merge_content (ops : List Op) (hops : ∀ d, Op.mkDict d ∈ ops → Dict.WF d) (first : Nat) (rest : List Nat)
    (hf : first < (run ops).objs.length) :
    ∃ d, (step (run ops) (.merge first rest)).view (run ops).objs.length = some d ∧
      ∀ k, d.get? k = (first :: rest).reverse.findSome? (fun o => ((run ops).view o).bind (·.get? k)) := by
  have hwf := wf_run ops hops
  have hinv := inv_run ops
  generalize run ops = s at *
  have e : s.objs[first]? = some s.objs[first] := List.getElem?_eq_getElem hf
  have halt : s.objs[first] < s.heap.length := hinv.objs_lt _ (List.getElem_mem hf)
  have e2 : s.heap[s.objs[first]]? = some s.heap[s.objs[first]] := List.getElem?_eq_getElem halt
  refine ⟨rest.foldl (fun d o => d.update ((s.view o).getD [])) s.heap[s.objs[first]], by simp [step, e, e2, State.alloc, State.view], ?_⟩
  intro k
  have hview : ∀ o, Dict.WF ((s.view o).getD []) := by
    intro o
    cases hv : s.view o with
    | none => exact Dict.wf_nil
    | some d =>
      unfold State.view at hv
      cases ho : s.objs[o]? with
      | none => rw [ho] at hv; cases hv
      | some a => rw [ho] at hv; exact hwf d (List.mem_of_getElem? hv)
  have key : ∀ (r : List Nat) (d : Styles), (r.foldl (fun d o => d.update ((s.view o).getD [])) d).get? k =
      (r.reverse.findSome? (fun o => (s.view o).bind (·.get? k))).or (d.get? k) := by
    intro r
    induction r with
    | nil => intro d; simp
    | cons o r ih =>
      intro d
      rw [List.foldl_cons, ih, Dict.get?_update (hview o), List.reverse_cons, List.findSome?_append, Option.or_assoc]
      congr 1
      cases hvo : s.view o <;> simp [hvo]
  rw [key, List.reverse_cons, List.findSome?_append]
  congr 1
  simp [State.view, e, e2]

/-- two objects built from the same dictionary, then a transformed copy, then an edit through the first one -/
def demo : List Op :=
  [.mkDict [("color", .str "red")], .create (some 0), .create (some 0), .transform 0, .read 0]

example : (run demo).objs = [1, 2, 3] ∧ (run demo).vars = [0, 1] ∧
    (step (run demo) (.edit 1 "color" (.str "blue"))).view 0 = some [("color", .str "blue")] ∧
    (step (run demo) (.edit 1 "color" (.str "blue"))).view 2 = some [("color", .str "red")] := by decide

/-- two cells with a style in common, merged -/
example : (step (run [.mkDict [("a", .str "1"), ("b", .str "1")], .create (some 0), .mkDict [("b", .str "2"), ("c", .str "2")],
    .create (some 1)]) (.merge 0 [1])).view 2 = some [("a", .str "1"), ("b", .str "2"), ("c", .str "2")] := by decide

end Benker.Heap
