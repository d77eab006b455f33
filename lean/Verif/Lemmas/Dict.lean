import Verif.Py

/-! Facts about insertion-ordered dictionaries. -/

namespace Benker.Dict
variable {κ ν : Type} [DecidableEq κ]

/-- the keys are pairwise distinct, which holds for every Python `dict` -/
def WF (d : Dict κ ν) : Prop := (d.map (·.1)).Nodup

@[simp] theorem get?_nil (k : κ) : get? ([] : Dict κ ν) k = none := rfl

theorem get?_cons (k' : κ) (v : ν) (d : Dict κ ν) (k : κ) :
    get? ((k', v) :: d) k = if k' = k then some v else get? d k := by
  unfold get?
  by_cases h : k' = k <;> simp [List.find?_cons, h]

theorem get?_set (d : Dict κ ν) (k : κ) (v : ν) (k' : κ) :
    get? (set d k v) k' = if k = k' then some v else get? d k' := by
  induction d with
  | nil => simp [set, get?_cons]
  | cons p d ih =>
    obtain ⟨a, b⟩ := p
    unfold set
    by_cases h : a = k
    · subst h; simp only [if_true, get?_cons]; split <;> simp_all
    · simp only [h, if_false, get?_cons, ih]
      by_cases h1 : k = k'
      · subst h1; simp [h]
      · simp [h1]

theorem keys_set (d : Dict κ ν) (k : κ) (v : ν) :
    (set d k v).map (·.1) = if k ∈ d.map (·.1) then d.map (·.1) else d.map (·.1) ++ [k] := by
  induction d with
  | nil => simp [set]
  | cons p d ih =>
    obtain ⟨a, b⟩ := p
    unfold set
    by_cases h : a = k
    · subst h; simp
    · simp only [h, if_false, List.map_cons, ih, List.mem_cons]
      have : ¬ k = a := fun e => h e.symm
      simp only [this, false_or]
      split <;> simp

theorem wf_nil : WF ([] : Dict κ ν) := by simp [WF]

theorem wf_set {d : Dict κ ν} (h : WF d) (k : κ) (v : ν) : WF (set d k v) := by
  unfold WF at *
  rw [keys_set]
  split
  · exact h
  · rename_i hk
    rw [List.nodup_append]
    refine ⟨h, by simp, ?_⟩
    intro a ha b hb
    simp only [List.mem_singleton] at hb
    subst hb
    intro e; subst e; exact hk ha

theorem wf_update {d : Dict κ ν} (h : WF d) (e : Dict κ ν) : WF (update d e) := by
  unfold update
  induction e generalizing d with
  | nil => exact h
  | cons p e ih => exact ih (wf_set h _ _)

theorem get?_eq_none {d : Dict κ ν} {k : κ} : get? d k = none ↔ k ∉ d.map (·.1) := by
  induction d with
  | nil => simp
  | cons p d ih =>
    obtain ⟨a, b⟩ := p
    rw [get?_cons]
    by_cases h : a = k
    · simp [h]
    · simp only [h, if_false, ih, List.map_cons, List.mem_cons, not_or]
      exact ⟨fun h' => ⟨fun e => h e.symm, h'⟩, fun h' => h'.2⟩

/-- `update`: the second dictionary wins -/
theorem get?_update {e : Dict κ ν} (he : WF e) (d : Dict κ ν) (k : κ) :
    get? (update d e) k = (get? e k).or (get? d k) := by
  unfold update
  induction e generalizing d with
  | nil => simp
  | cons p e ih =>
    obtain ⟨a, b⟩ := p
    have he' : WF e := (List.nodup_cons.mp he).2
    have ha : a ∉ e.map (·.1) := (List.nodup_cons.mp he).1
    rw [List.foldl_cons, ih he', get?_set, get?_cons]
    by_cases h : a = k
    · subst h; simp [get?_eq_none.mpr ha]
    · simp [h]

end Benker.Dict
