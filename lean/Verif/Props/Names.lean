import Verif.Lemmas.Geometry
import Verif.Props.Alphabet

/-! Property C04: Excel-like names of coordinates and boxes are unambiguous. -/

namespace Benker

/-- a list splits uniquely into a prefix of characters satisfying `P` and a rest starting with none -/
theorem split_unique {P : Char → Prop} {u v s t : List Char} (h : u ++ s = v ++ t)
    (hu : ∀ c ∈ u, P c) (hv : ∀ c ∈ v, P c) (hs : ∀ c ∈ s, ¬ P c) (ht : ∀ c ∈ t, ¬ P c) : u = v ∧ s = t := by
  induction u generalizing v with
  | nil =>
    cases v with
    | nil => simpa using h
    | cons b v => simp at h; exact absurd (hv b (by simp)) (hs b (by simp [h]))
  | cons a u ih =>
    cases v with
    | nil => simp at h; exact absurd (hu a (by simp)) (ht a (by simp [← h]))
    | cons b v =>
      simp at h
      obtain ⟨rfl, h⟩ := h
      obtain ⟨rfl, rfl⟩ := ih h (fun c hc => hu c (by simp [hc])) (fun c hc => hv c (by simp [hc]))
      exact ⟨rfl, rfl⟩

theorem natDigits_inj {m n : Nat} (h : Coord.natDigits m = Coord.natDigits n) : m = n := by
  have := congrArg (fun l => Nat.ofDigitChars 10 l 0) h
  simpa [Coord.natDigits, Nat.ofDigitChars_ten_toDigits] using this

theorem natDigits_isDigit (n : Nat) : ∀ c ∈ Coord.natDigits n, c.isDigit = true :=
  fun _ hc => Nat.isDigit_of_mem_toDigits (by decide) (by decide) hc

theorem natDigits_no_minus (n : Nat) : '-' ∉ Coord.natDigits n := fun h => by
  have := natDigits_isDigit n '-' h
  revert this; decide

theorem intDigits_inj {i j : Int} (h : Coord.intDigits i = Coord.intDigits j) : i = j := by
  unfold Coord.intDigits at h
  split at h <;> split at h
  · have := natDigits_inj (List.cons.inj h).2; omega
  · exact absurd (by rw [← h]; simp) (natDigits_no_minus j.toNat)
  · exact absurd (by rw [h]; simp) (natDigits_no_minus i.toNat)
  · have := natDigits_inj h; omega

theorem upper_not_digit : ∀ c ∈ asciiUppercase, c.isDigit = false ∧ c ≠ '-' ∧ c ≠ ':' := by decide

theorem intDigits_not_upper (i : Int) : ∀ c ∈ Coord.intDigits i, ¬ c ∈ asciiUppercase := by
  intro c hc hu
  have h := upper_not_digit c hu
  unfold Coord.intDigits at hc
  split at hc
  · rcases List.mem_cons.mp hc with rfl | hc
    · exact h.2.1 rfl
    · have := natDigits_isDigit _ c hc; simp [h.1] at this
  · have := natDigits_isDigit _ c hc; simp [h.1] at this

theorem intDigits_no_colon (i : Int) : ':' ∉ Coord.intDigits i := by
  have hd : (':' : Char).isDigit = false := by decide
  unfold Coord.intDigits
  split
  · intro hc
    rcases List.mem_cons.mp hc with h | hc
    · revert h; decide
    · have := natDigits_isDigit _ _ hc; simp [hd] at this
  · intro hc; have := natDigits_isDigit _ _ hc; simp [hd] at this

theorem coord_str_ok (c : Coord) (hx : 0 ≤ c.x) : ∃ w, (∀ a ∈ w, a ∈ asciiUppercase) ∧
    intToAlphabet c.x asciiUppercase = .ok w ∧ c.str = .ok (w ++ Coord.intDigits c.y) := by
  obtain ⟨n, hn⟩ := Int.eq_ofNat_of_zero_le hx
  obtain ⟨w, hw, hm, _⟩ := C01_label_roundtrip asciiUppercase (by decide) (by decide) n
  rw [← hn] at hw
  exact ⟨w, hm, hw, by simp [Coord.str, hw]⟩

/-- **C04.** Two coordinates (of non-negative column, any row) with the same name are equal;
every such coordinate has a name. -/
theorem C04_coord_name_injective (c d : Coord) (hc : 0 ≤ c.x) (hd : 0 ≤ d.x) :
    (∃ s, c.str = .ok s) ∧ (c.str = d.str → c = d) := by
  obtain ⟨u, hu, hu', hcs⟩ := coord_str_ok c hc
  obtain ⟨v, hv, hv', hds⟩ := coord_str_ok d hd
  refine ⟨⟨_, hcs⟩, fun h => ?_⟩
  rw [hcs, hds] at h
  have h := split_unique (P := (· ∈ asciiUppercase)) (Except.ok.inj h) hu hv
    (intDigits_not_upper _) (intDigits_not_upper _)
  have hy := intDigits_inj h.2
  obtain ⟨m, hm⟩ := Int.eq_ofNat_of_zero_le hc
  obtain ⟨n, hn⟩ := Int.eq_ofNat_of_zero_le hd
  have hx := C03_label_injective asciiUppercase (by decide) (by decide) m n
    (by rw [← hm, ← hn, hu', hv', h.1])
  cases c; cases d; simp_all

theorem coord_str_no_colon (c : Coord) (s : List Char) (h : c.str = .ok s) : ':' ∉ s := by
  unfold Coord.str at h
  split at h
  · cases h
  · rename_i w hw
    cases h
    intro hc
    rcases List.mem_append.mp hc with hc | hc
    · rcases Int.lt_or_le c.x 0 with hx | hx
      · rw [(C01_label_error asciiUppercase (by decide) c.x).1.mpr hx] at hw; cases hw
      · obtain ⟨n, hn⟩ := Int.eq_ofNat_of_zero_le hx
        obtain ⟨w', hw', hm, _⟩ := C01_label_roundtrip asciiUppercase (by decide) (by decide) n
        rw [← hn, hw] at hw'; cases hw'
        exact (upper_not_digit _ (hm _ hc)).2.2 rfl
    · exact intDigits_no_colon _ hc

/-- **C04.** Two boxes with the same name are equal; every box has a name. -/
theorem C04_box_name_injective (a b : Box) (ha : a.Valid) (hb : b.Valid) :
    (∃ s, a.str = .ok s) ∧ (a.str = b.str → a = b) := by
  unfold Box.Valid at ha hb
  obtain ⟨_, _, _, sa⟩ := coord_str_ok a.min (by omega)
  obtain ⟨_, _, _, ta⟩ := coord_str_ok a.max (by omega)
  obtain ⟨_, _, _, sb⟩ := coord_str_ok b.min (by omega)
  obtain ⟨_, _, _, tb⟩ := coord_str_ok b.max (by omega)
  have na := coord_str_no_colon _ _ sa
  have nb := coord_str_no_colon _ _ sb
  have na' := coord_str_no_colon _ _ ta
  have nb' := coord_str_no_colon _ _ tb
  have imin := (C04_coord_name_injective a.min b.min (by omega) (by omega)).2
  have imax := (C04_coord_name_injective a.max b.max (by omega) (by omega)).2
  simp only [Box.str, sa, ta, sb, tb] at *
  refine ⟨?_, ?_⟩
  · split <;> exact ⟨_, rfl⟩
  · split <;> split
    · rename_i h1 h2
      intro h
      have hm := imin h
      unfold Box.width Box.height at h1 h2
      apply box_ext
      · rw [hm]
      · rw [hm]
      · rw [hm] at h1; omega
      · rw [hm] at h1; omega
    · intro h
      exact absurd (by rw [Except.ok.inj h]; simp) na
    · intro h
      exact absurd (by rw [← Except.ok.inj h]; simp) nb
    · intro h
      have h := Except.ok.inj h
      have key : ∀ (u v s t : List Char), ':' ∉ u → ':' ∉ v →
          u ++ ([':'] ++ s) = v ++ ([':'] ++ t) → u = v ∧ s = t := by
        intro u
        induction u with
        | nil =>
          intro v s t _ hv h
          cases v with
          | nil => simpa using h
          | cons c v => simp at h; simp [← h.1] at hv
        | cons c u ih =>
          intro v s t hu hv h
          cases v with
          | nil => simp at h; simp [h.1] at hu
          | cons d v =>
            simp at h hu hv
            obtain ⟨h1, h2⟩ := ih v s t hu.2 hv.2 (by simpa using h.2)
            exact ⟨by rw [h.1, h1], h2⟩
      obtain ⟨h1, h2⟩ := key _ _ _ _ na nb (by simpa only [List.append_assoc] using h)
      have hm := imin (by rw [h1])
      have hM := imax (by rw [h2])
      cases a; cases b; simp_all

/-- The hypotheses are met by the boxes `E6:G8` and `E6`. -/
example : (⟨⟨5, 6⟩, ⟨7, 8⟩⟩ : Box).Valid ∧ (⟨⟨5, 6⟩, ⟨5, 6⟩⟩ : Box).Valid := by decide

end Benker
