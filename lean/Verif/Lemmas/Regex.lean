import Verif.Model.Regex

namespace Benker.Re

/-- the text does not begin with a character of the class -/
def NotStart (p : Char → Bool) (s : List Char) : Prop := ∀ c r, s = c :: r → p c = false

theorem star_stop (p : Char → Bool) (s : List Char) (h : NotStart p s) : star p s = [([], s)] := by
  cases s with
  | nil => rfl
  | cons c r => simp [star, h c r rfl]

/-- the first match of `[...]*` is the longest; the rest of any other match begins with a character of the class -/
theorem star_run (p : Char → Bool) (ds rest : List Char) (hd : ∀ c ∈ ds, p c = true) (hr : NotStart p rest) :
    ∃ tl, star p (ds ++ rest) = (ds, rest) :: tl ∧ ∀ m ∈ tl, ∃ c r, m.2 = c :: r ∧ p c = true := by
  induction ds with
  | nil => exact ⟨[], star_stop p rest hr, by simp⟩
  | cons c ds ih =>
    obtain ⟨tl, h1, h2⟩ := ih (fun x hx => hd x (by simp [hx]))
    have hc := hd c (by simp)
    refine ⟨tl.map (fun m => (c :: m.1, m.2)) ++ [([], c :: (ds ++ rest))], ?_, ?_⟩
    · simp [star, hc, h1]
    · intro m hm
      rcases List.mem_append.mp hm with hm | hm
      · obtain ⟨n, hn, rfl⟩ := List.mem_map.mp hm
        exact h2 n hn
      · rw [List.mem_singleton] at hm; subst hm
        exact ⟨c, _, rfl, hc⟩

theorem plus_run (p : Char → Bool) (ds rest : List Char) (hne : ds ≠ []) (hd : ∀ c ∈ ds, p c = true) (hr : NotStart p rest) :
    ∃ tl, plus p (ds ++ rest) = (ds, rest) :: tl := by
  cases ds with
  | nil => exact absurd rfl hne
  | cons c ds =>
    obtain ⟨tl, h1, _⟩ := star_run p ds rest (fun x hx => hd x (by simp [hx])) hr
    refine ⟨tl.map (fun n => (c :: n.1, n.2)), ?_⟩
    simp [plus, seq, cls, hd c (by simp), h1]

theorem plus_stop (p : Char → Bool) (s : List Char) (h : NotStart p s) : plus p s = [] := by
  cases s with
  | nil => rfl
  | cons c r => simp [plus, seq, cls, h c r rfl]

theorem seq_apply (a b : Re) (s : List Char) : seq a b s = (a s).flatMap (fun m => (b m.2).map (fun n => (m.1 ++ n.1, n.2))) := rfl
theorem opt_apply (a : Re) (s : List Char) : opt a s = a s ++ [([], s)] := rfl

def afterChar (d : Char) (ds : List Char) : List Char → List (List Char × List Char)
  | c :: r => if c = d then [(ds ++ [d], r)] else []
  | [] => []

theorem afterChar_cons (d c : Char) (ds r : List Char) : afterChar d ds (c :: r) = if c = d then [(ds ++ [d], r)] else [] := rfl
theorem cls_cons (p : Char → Bool) (c : Char) (r : List Char) : cls p (c :: r) = if p c then [([c], r)] else [] := rfl

/-- `[...]*d` where `d` is outside the class: at most one match -/
theorem star_seq_char (p : Char → Bool) (d : Char) (hpd : p d = false) (ds rest : List Char) (hd : ∀ c ∈ ds, p c = true)
    (hr : NotStart p rest) :
    seq (star p) (cls (· = d)) (ds ++ rest) = afterChar d ds rest := by
  obtain ⟨tl, h1, h2⟩ := star_run p ds rest hd hr
  have htl : tl.flatMap (fun m => (cls (· = d) m.2).map (fun n => (m.1 ++ n.1, n.2))) = [] := by
    apply List.flatMap_eq_nil_iff.mpr
    intro m hm
    obtain ⟨c, r, e, hc⟩ := h2 m hm
    have : c ≠ d := by rintro rfl; rw [hpd] at hc; cases hc
    rw [e]
    simp [cls, this]
  unfold seq
  rw [h1, List.flatMap_cons, htl]
  cases rest with
  | nil => rfl
  | cons c r =>
    by_cases hcd : c = d
    · subst hcd; simp [cls, afterChar]
    · simp [cls, afterChar, hcd]

theorem search_head {α : Type} (f : List Char → List α) (s : List Char) (g : α) (tl : List α) (h : f s = g :: tl) : search f s = some g := by
  cases s <;> simp [search, h]

theorem search_skip {α : Type} (f : List Char → List α) (pre s : List Char) (h : ∀ a b, pre = a ++ b → b ≠ [] → f (b ++ s) = []) :
    search f (pre ++ s) = search f s := by
  induction pre with
  | nil => rfl
  | cons c pre ih =>
    have h0 := h [] (c :: pre) rfl (by simp)
    rw [List.cons_append] at h0 ⊢
    rw [search, h0]
    exact ih (fun a b e hb => h (c :: a) b (by rw [e]; rfl) hb)

end Benker.Re
