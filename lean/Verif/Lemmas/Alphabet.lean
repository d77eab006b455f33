import Verif.Model.Alphabet

namespace Benker
variable {α : Type}

theorem loop_zero (A : List α) (acc : List α) : intToAlphabetLoop A 0 acc = .ok acc := by
  rw [intToAlphabetLoop]; simp

theorem loop_pos (A : List α) (q : Nat) (acc : List α) (hA : A ≠ []) :
    ∃ a, A[q % A.length]? = some a ∧
      intToAlphabetLoop A (q + 1) acc = intToAlphabetLoop A (q / A.length) (a :: acc) := by
  have hlen : 0 < A.length := List.length_pos_iff.mpr hA
  have hlt : q % A.length < A.length := Nat.mod_lt _ hlen
  refine ⟨A[q % A.length], by simp [hlt], ?_⟩
  rw [intToAlphabetLoop]
  simp [pyGetNat, hlt]

theorem intToAlphabet_eq_loop (A : List α) (hA : A ≠ []) (n : Nat) :
    intToAlphabet (n : Int) A = intToAlphabetLoop A n [] := by
  have hlen : 0 < A.length := List.length_pos_iff.mpr hA
  cases n with
  | zero => simp [intToAlphabet, loop_zero]
  | succ n =>
    obtain ⟨a, ha, h⟩ := loop_pos A n [] hA
    rw [h]
    unfold intToAlphabet
    have e : ((((n + 1 : Nat) : Int)) - 1).toNat = n := by omega
    rw [if_neg (by omega), if_neg (by omega), if_neg (by omega)]
    simp only [e, pyGetNat, ha]

theorem loop_ok (A : List α) (hA : A ≠ []) :
    ∀ (q : Nat) (acc : List α), ∃ w, intToAlphabetLoop A q acc = .ok (w ++ acc) ∧ ∀ c ∈ w, c ∈ A := by
  intro q
  induction q using Nat.strongRecOn with
  | _ q ih =>
    intro acc
    cases q with
    | zero => exact ⟨[], by simp [loop_zero], by simp⟩
    | succ q =>
      obtain ⟨a, ha, h⟩ := loop_pos A q acc hA
      obtain ⟨w, hw, hmem⟩ := ih (q / A.length)
        (Nat.lt_of_le_of_lt (Nat.div_le_self _ _) (by omega)) (a :: acc)
      refine ⟨w ++ [a], by rw [h, hw]; simp, ?_⟩
      intro c hc
      rcases List.mem_append.mp hc with hc | hc
      · exact hmem c hc
      · simp at hc; subst hc; exact List.mem_of_getElem? ha

variable [DecidableEq α]

theorem findIdx_of_getElem? (A : List α) (hnd : A.Nodup) (i : Nat) (a : α) (h : A[i]? = some a) :
    A.findIdx? (· = a) = some i := by
  rw [List.findIdx?_eq_some_iff_getElem]
  have hi : i < A.length := by
    rcases Nat.lt_or_ge i A.length with h' | h'
    · exact h'
    · rw [List.getElem?_eq_none h'] at h; cases h
  rw [List.getElem?_eq_getElem hi] at h
  have h := Option.some.inj h
  refine ⟨hi, by simpa using h, ?_⟩
  intro j hj heq
  simp at heq
  have := (List.getElem_inj (h₀ := by omega) (h₁ := hi) hnd (i := j) (j := i)).mp (by rw [heq, h])
  omega

theorem findIdx_some (A : List α) (a : α) (i : Nat) (h : A.findIdx? (· = a) = some i) :
    A[i]? = some a := by
  rw [List.findIdx?_eq_some_iff_getElem] at h
  obtain ⟨hi, h, _⟩ := h
  simp at h
  simp [hi, h]

theorem from_loop (A : List α) (hA : A ≠ []) (hnd : A.Nodup) :
    ∀ (q : Nat) (acc w : List α), intToAlphabetLoop A q acc = .ok w →
      alphabetToIntFrom A 0 w = alphabetToIntFrom A q acc := by
  intro q
  induction q using Nat.strongRecOn with
  | _ q ih =>
    intro acc w hw
    cases q with
    | zero => rw [loop_zero] at hw; cases hw; rfl
    | succ q =>
      obtain ⟨a, ha, h⟩ := loop_pos A q acc hA
      rw [h] at hw
      have := ih (q / A.length) (Nat.lt_of_le_of_lt (Nat.div_le_self _ _) (by omega)) _ _ hw
      rw [this]
      simp only [alphabetToIntFrom, findIdx_of_getElem? A hnd _ a ha]
      congr 1
      have := Nat.div_add_mod q A.length
      rw [Nat.mul_comm] at this
      omega

theorem loop_from (A : List α) (hA : A ≠ []) :
    ∀ (w : List α) (v n : Nat) (acc : List α), alphabetToIntFrom A v w = .ok n →
      intToAlphabetLoop A n acc = intToAlphabetLoop A v (w ++ acc) := by
  intro w
  induction w with
  | nil => intro v n acc h; simp [alphabetToIntFrom] at h; subst h; rfl
  | cons c cs ih =>
    intro v n acc h
    rw [alphabetToIntFrom] at h
    split at h
    · cases h
    · rename_i i hi
      rw [ih _ _ acc h]
      have hci := findIdx_some A c i hi
      have hlt : i < A.length := by
        rcases Nat.lt_or_ge i A.length with h' | h'
        · exact h'
        · rw [List.getElem?_eq_none h'] at hci; cases hci
      have e : v * A.length + (i + 1) = (v * A.length + i) + 1 := by omega
      obtain ⟨a, ha, h'⟩ := loop_pos A (v * A.length + i) (cs ++ acc) hA
      rw [e, h']
      have hmod : (v * A.length + i) % A.length = i := by
        rw [Nat.mul_comm, Nat.mul_add_mod]; exact Nat.mod_eq_of_lt hlt
      have hdiv : (v * A.length + i) / A.length = v := by
        rw [Nat.mul_comm, Nat.mul_add_div (by omega), Nat.div_eq_of_lt hlt]; simp
      rw [hmod, hci] at ha
      rw [hdiv]; cases ha; rfl

theorem from_error (A : List α) : ∀ (w : List α) (v : Nat),
    alphabetToIntFrom A v w = .error .valueError ↔ ∃ c ∈ w, c ∉ A := by
  intro w
  induction w with
  | nil => intro v; simp [alphabetToIntFrom]
  | cons c cs ih =>
    intro v
    rw [alphabetToIntFrom]
    split
    · rename_i h
      rw [List.findIdx?_eq_none_iff] at h
      simp only [true_iff]
      refine ⟨c, by simp, fun hc => ?_⟩
      have := h c hc; simp at this
    · rename_i i h
      rw [ih]
      have : c ∈ A := List.mem_of_getElem? (findIdx_some A c i h)
      simp [this]

theorem from_ok_or (A : List α) : ∀ (w : List α) (v : Nat),
    (∃ n, alphabetToIntFrom A v w = .ok n) ∨ alphabetToIntFrom A v w = .error .valueError := by
  intro w
  induction w with
  | nil => intro v; simp [alphabetToIntFrom]
  | cons c cs ih => intro v; rw [alphabetToIntFrom]; split <;> simp [ih]

/-- values of words of equal length are ordered by the starting value -/
theorem from_lt (A : List α) : ∀ (w1 w2 : List α) (v1 v2 n1 n2 : Nat), w1.length = w2.length →
    v1 < v2 → alphabetToIntFrom A v1 w1 = .ok n1 → alphabetToIntFrom A v2 w2 = .ok n2 → n1 < n2 := by
  intro w1
  induction w1 with
  | nil =>
    intro w2 v1 v2 n1 n2 hl hv h1 h2
    cases w2 with
    | nil => simp [alphabetToIntFrom] at h1 h2; omega
    | cons => simp at hl
  | cons a w1 ih =>
    intro w2 v1 v2 n1 n2 hl hv h1 h2
    cases w2 with
    | nil => simp at hl
    | cons b w2 =>
      rw [alphabetToIntFrom] at h1 h2
      split at h1
      · cases h1
      · rename_i i hi
        split at h2
        · cases h2
        · rename_i j hj
          refine ih w2 _ _ n1 n2 (by simpa using hl) ?_ h1 h2
          have hlt : i < A.length := by
            have := findIdx_some A a i hi
            rcases Nat.lt_or_ge i A.length with h' | h'
            · exact h'
            · rw [List.getElem?_eq_none h'] at this; cases this
          have : (v1 + 1) * A.length ≤ v2 * A.length := Nat.mul_le_mul_right _ hv
          rw [Nat.add_mul] at this
          omega

theorem from_append (A : List α) : ∀ (w1 w2 : List α) (v : Nat),
    alphabetToIntFrom A v (w1 ++ w2) =
      match alphabetToIntFrom A v w1 with
      | .ok n => alphabetToIntFrom A n w2
      | .error e => .error e := by
  intro w1
  induction w1 with
  | nil => intro w2 v; simp [alphabetToIntFrom]
  | cons a w1 ih =>
    intro w2 v
    simp only [List.cons_append, alphabetToIntFrom]
    split <;> simp [ih]

theorem from_ge (A : List α) : ∀ (w : List α) (v n : Nat), alphabetToIntFrom A v w = .ok n →
    v ≤ n ∧ (w ≠ [] → 0 < n) := by
  intro w
  induction w with
  | nil => intro v n h; simp [alphabetToIntFrom] at h; simp [h]
  | cons c cs ih =>
    intro v n h
    rw [alphabetToIntFrom] at h
    split at h
    · cases h
    · rename_i i hi
      have hlt : i < A.length := by
        have := findIdx_some A c i hi
        rcases Nat.lt_or_ge i A.length with h' | h'
        · exact h'
        · rw [List.getElem?_eq_none h'] at this; cases this
      have := (ih _ _ h).1
      have : v * 1 ≤ v * A.length := Nat.mul_le_mul_left _ (by omega)
      refine ⟨by omega, fun _ => by omega⟩

/-- a shorter word has a smaller value -/
theorem from_len_lt (A : List α) (w1 w2 : List α) (n1 n2 : Nat) (hl : w1.length < w2.length)
    (h1 : alphabetToIntFrom A 0 w1 = .ok n1) (h2 : alphabetToIntFrom A 0 w2 = .ok n2) : n1 < n2 := by
  let k := w2.length - w1.length
  have hsplit : w2 = w2.take k ++ w2.drop k := (List.take_append_drop k w2).symm
  have htake : (w2.take k) ≠ [] := by
    intro h
    have := congrArg List.length h
    simp [k] at this
    omega
  rw [hsplit, from_append] at h2
  split at h2
  · rename_i m hm
    have := (from_ge A _ _ _ hm).2 htake
    exact from_lt A w1 _ 0 m n1 n2 (by simp [k]; omega) this h1 h2
  · cases h2

end Benker
