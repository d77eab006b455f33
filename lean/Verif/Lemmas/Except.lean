import Verif.Py

/-! Facts about exceptions and lists. -/

namespace Benker

theorem ok_bind {ε α β : Type} (a : α) (f : α → Except ε β) : ((Except.ok a : Except ε α) >>= f) = f a := rfl
theorem error_bind {ε α β : Type} (e : ε) (f : α → Except ε β) : ((Except.error e : Except ε α) >>= f) = .error e := rfl
theorem except_pure {ε α : Type} (a : α) : (pure a : Except ε α) = .ok a := rfl

/-- two lists related element by element -/
inductive All₂ {α β : Type} (R : α → β → Prop) : List α → List β → Prop
  | nil : All₂ R [] []
  | cons {a b l m} : R a b → All₂ R l m → All₂ R (a :: l) (b :: m)

theorem All₂.length {α β : Type} {R : α → β → Prop} {l : List α} {m : List β} (h : All₂ R l m) : l.length = m.length := by
  induction h with
  | nil => rfl
  | cons _ _ ih => simp [ih]

theorem All₂.imp {α β : Type} {R S : α → β → Prop} (hRS : ∀ a b, R a b → S a b) {l : List α} {m : List β} (h : All₂ R l m) :
    All₂ S l m := by
  induction h with
  | nil => exact .nil
  | cons h1 _ ih => exact .cons (hRS _ _ h1) ih

theorem All₂.map_eq {α β δ : Type} {f : α → δ} {g : β → δ} {l : List α} {m : List β} (h : All₂ (fun a b => f a = g b) l m) :
    l.map f = m.map g := by
  induction h with
  | nil => rfl
  | cons h1 _ ih => simp [h1, ih]

theorem mapM_ok_of_forall {α β : Type} {f : α → Except PyErr β} {P : α → β → Prop} :
    ∀ (l : List α), (∀ a ∈ l, ∃ b, f a = .ok b ∧ P a b) →
      ∃ bs, l.mapM f = .ok bs ∧ All₂ P l bs := by
  intro l
  induction l with
  | nil => intro _; exact ⟨[], rfl, .nil⟩
  | cons a l ih =>
    intro h
    obtain ⟨b, hb, hP⟩ := h a (by simp)
    obtain ⟨bs, hbs, hF⟩ := ih (fun a ha => h a (by simp [ha]))
    refine ⟨b :: bs, ?_, .cons hP hF⟩
    rw [List.mapM_cons, hb, hbs]; rfl

theorem mapM_ok_map {α β : Type} {f : α → Except PyErr β} {g : α → β} (l : List α) (h : ∀ a ∈ l, f a = .ok (g a)) :
    l.mapM f = .ok (l.map g) := by
  induction l with
  | nil => rfl
  | cons a l ih => rw [List.mapM_cons, h a (by simp), ih (fun b hb => h b (by simp [hb]))]; rfl

theorem bind_ok {ε α β : Type} {x : Except ε α} {f : α → Except ε β} {b : β} (h : (x >>= f) = .ok b) : ∃ a, x = .ok a ∧ f a = .ok b := by
  cases x with
  | error e => cases h
  | ok a => exact ⟨a, rfl, h⟩

theorem mapM_ok_all₂ {α β : Type} {f : α → Except PyErr β} : ∀ {l : List α} {bs : List β}, l.mapM f = .ok bs →
    All₂ (fun a b => f a = .ok b) l bs := by
  intro l
  induction l with
  | nil => intro bs h; cases h; exact .nil
  | cons a l ih =>
    intro bs h
    rw [List.mapM_cons] at h
    obtain ⟨b, h1, h2⟩ := bind_ok h
    obtain ⟨bs', h3, h4⟩ := bind_ok h2
    cases h4
    exact .cons h1 (ih h3)

theorem All₂.imp_mem {α β : Type} {R S : α → β → Prop} {l : List α} {m : List β} (h : All₂ R l m) (hRS : ∀ a ∈ l, ∀ b, R a b → S a b) :
    All₂ S l m := by
  induction h with
  | nil => exact .nil
  | cons h1 _ ih => exact .cons (hRS _ (by simp) _ h1) (ih (fun a ha => hRS a (by simp [ha])))

theorem All₂.getElem {α β : Type} {R : α → β → Prop} {l : List α} {m : List β} (h : All₂ R l m) (i : Nat) (h1 : i < l.length) (h2 : i < m.length) :
    R l[i] m[i] := by
  induction h generalizing i with
  | nil => simp at h1
  | cons hr _ ih =>
    cases i with
    | zero => exact hr
    | succ i => exact ih i (by simpa using h1) (by simpa using h2)

theorem All₂.mem_left {α β : Type} {R : α → β → Prop} {l : List α} {m : List β} (h : All₂ R l m) {a : α} (ha : a ∈ l) : ∃ b ∈ m, R a b := by
  induction h with
  | nil => simp at ha
  | cons h1 _ ih =>
    rcases List.mem_cons.mp ha with rfl | ha
    · exact ⟨_, by simp, h1⟩
    · obtain ⟨b, hb, hr⟩ := ih ha; exact ⟨b, by simp [hb], hr⟩

theorem All₂.mem_right {α β : Type} {R : α → β → Prop} {l : List α} {m : List β} (h : All₂ R l m) {b : β} (hb : b ∈ m) : ∃ a ∈ l, R a b := by
  induction h with
  | nil => simp at hb
  | cons h1 _ ih =>
    rcases List.mem_cons.mp hb with rfl | hb
    · exact ⟨_, by simp, h1⟩
    · obtain ⟨a, ha, hr⟩ := ih hb; exact ⟨a, by simp [ha], hr⟩

end Benker
