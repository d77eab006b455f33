import Verif.Model.FormexBuilder
import Verif.Lemmas.Regex

namespace Benker
open Fmx

theorem Re.lit_append (w r : List Char) : Re.lit w (w ++ r) = [(w, r)] := by
  unfold Re.lit
  rw [if_pos (by simp)]
  simp

theorem Re.lit_mem {w s : List Char} {m : List Char × List Char} (h : m ∈ Re.lit w s) : m.1 = w ∧ s = m.1 ++ m.2 := by
  unfold Re.lit at h
  split at h
  · rename_i hp
    rw [List.mem_singleton] at h
    subst h
    obtain ⟨r, rfl⟩ := List.isPrefixOf_iff_prefix.mp hp
    simp
  · cases h

theorem Re.star_mem {p : Char → Bool} {s : List Char} {m : List Char × List Char} (h : m ∈ Re.star p s) :
    s = m.1 ++ m.2 ∧ ∀ c ∈ m.1, p c = true := by
  induction s generalizing m with
  | nil => simp [Re.star] at h; subst h; simp
  | cons c r ih =>
    unfold Re.star at h
    split at h
    · rename_i hp
      rcases List.mem_append.mp h with h | h
      · obtain ⟨n, hn, rfl⟩ := List.mem_map.mp h
        obtain ⟨h1, h2⟩ := ih hn
        refine ⟨by simp [← h1], ?_⟩
        intro x hx
        rcases List.mem_cons.mp hx with rfl | hx
        · exact hp
        · exact h2 x hx
      · rw [List.mem_singleton] at h; subst h; simp
    · rw [List.mem_singleton] at h; subst h; simp

theorem Re.plus_mem {p : Char → Bool} {s : List Char} {m : List Char × List Char} (h : m ∈ Re.plus p s) :
    s = m.1 ++ m.2 ∧ m.1 ≠ [] ∧ ∀ c ∈ m.1, p c = true := by
  cases s with
  | nil => simp [Re.plus, Re.seq, Re.cls] at h
  | cons c r =>
    by_cases hp : p c = true
    · simp only [Re.plus, Re.seq, Re.cls, hp, if_true, List.flatMap_cons, List.flatMap_nil, List.append_nil, List.mem_map] at h
      obtain ⟨n, hn, rfl⟩ := h
      obtain ⟨h1, h2⟩ := Re.star_mem hn
      refine ⟨by simp [← h1], by simp, ?_⟩
      intro x hx
      rcases List.mem_append.mp hx with hx | hx
      · simp at hx; rw [hx]; exact hp
      · exact h2 x hx
    · simp [Re.plus, Re.seq, Re.cls, hp] at h

theorem words_mem {l : List String} {s : List Char} {m : List Char × List Char} (h : m ∈ words l s) :
    ∃ w ∈ l, m.1 = w.toList ∧ s = m.1 ++ m.2 := by
  unfold words Re.alts at h
  obtain ⟨a, ha, hm⟩ := List.mem_flatMap.mp h
  obtain ⟨w, hw, rfl⟩ := List.mem_map.mp ha
  obtain ⟨h1, h2⟩ := Re.lit_mem hm
  exact ⟨w, hw, h1, h2⟩

theorem capOpt_mem {pre s : List Char} {a : Re} {m : Option (List Char) × List Char} (h : m ∈ capOpt pre a s) :
    (∃ n, n ∈ a (s.drop pre.length) ∧ s = pre ++ s.drop pre.length ∧ m = (some n.1, n.2)) ∨ m = (none, s) := by
  unfold capOpt at h
  rcases List.mem_append.mp h with h | h
  · left
    obtain ⟨k, hk, hm⟩ := List.mem_flatMap.mp h
    obtain ⟨n, hn, rfl⟩ := List.mem_map.mp hm
    obtain ⟨h1, h2⟩ := Re.lit_mem hk
    have hd : s.drop pre.length = k.2 := by rw [h2, h1]; simp
    refine ⟨n, by rw [hd]; exact hn, by rw [hd, ← h1]; exact h2, rfl⟩
  · right; simpa using h

/-- the optional part of a row style: the separator and the text, or nothing -/
def optText (pre : List Char) : Option (List Char) → List Char
  | none => []
  | some w => pre ++ w

theorem rowMatches_mem {s : List Char} {m : List Char × Option (List Char) × Option (List Char)} (h : m ∈ rowMatches s) :
    (∃ w ∈ tags, m.1 = w.toList) ∧ (∀ t, m.2.1 = some t → ∃ w ∈ types, t = w.toList) ∧
    (∀ d, m.2.2 = some d → d ≠ [] ∧ ∀ c ∈ d, Unicode.isDigit c = true) ∧
    ∃ e, (e = [] ∨ e = ['\n']) ∧ s = m.1 ++ optText ['-'] m.2.1 ++ optText "-level".toList m.2.2 ++ e := by
  unfold rowMatches at h
  obtain ⟨m1, h1, h⟩ := List.mem_flatMap.mp h
  obtain ⟨m2, h2, h⟩ := List.mem_flatMap.mp h
  obtain ⟨m3, h3, rfl⟩ := List.mem_map.mp h
  obtain ⟨h3, he⟩ := List.mem_filter.mp h3
  obtain ⟨w, hw, e1, s1⟩ := words_mem h1
  have hend : m3.2 = [] ∨ m3.2 = ['\n'] := by simpa [atEnd] using he
  refine ⟨⟨w, hw, e1⟩, ?_, ?_, m3.2, hend, ?_⟩
  · rcases capOpt_mem h2 with ⟨n, hn, hs, rfl⟩ | rfl
    · obtain ⟨w', hw', e2, _⟩ := words_mem hn
      rintro t rfl'
      cases rfl'
      exact ⟨w', hw', e2⟩
    · intro t ht; cases ht
  · rcases capOpt_mem h3 with ⟨n, hn, hs, rfl⟩ | rfl
    · obtain ⟨_, p1, p2⟩ := Re.plus_mem hn
      rintro d rfl'
      cases rfl'
      exact ⟨p1, p2⟩
    · intro t ht; cases ht
  · have q3 : m2.2 = optText "-level".toList m3.1 ++ m3.2 := by
      rcases capOpt_mem h3 with ⟨n, hn, hs, rfl⟩ | rfl
      · obtain ⟨p0, _, _⟩ := Re.plus_mem hn
        rw [hs, p0]; simp [optText]
      · rfl
    have q2 : m1.2 = optText ['-'] m2.1 ++ m2.2 := by
      rcases capOpt_mem h2 with ⟨n, hn, hs, rfl⟩ | rfl
      · obtain ⟨_, _, _, p0⟩ := words_mem hn
        rw [hs, p0]; simp [optText]
      · rfl
    simp only
    rw [s1, q2, q3]
    simp [List.append_assoc]

theorem words_tags (w : String) (h : w ∈ tags) (r : List Char) : words tags (w.toList ++ r) = [(w.toList, r)] := by
  simp only [tags, List.mem_cons, List.not_mem_nil, or_false] at h
  rcases h with rfl | rfl | rfl <;> rfl

theorem words_types (w : String) (h : w ∈ types) (r : List Char) : words types (w.toList ++ r) = [(w.toList, r)] := by
  simp only [types, List.mem_cons, List.not_mem_nil, or_false] at h
  rcases h with rfl | rfl | rfl | rfl | rfl <;> rfl

theorem capOpt_some (pre : List Char) (a : Re) (w r : List Char) (tl) (h : a (w ++ r) = (w, r) :: tl) :
    ∃ tl', capOpt pre a (pre ++ w ++ r) = (some w, r) :: tl' := by
  unfold capOpt
  rw [List.append_assoc, Re.lit_append]
  simp [h]

theorem level_ends (e : List Char) (he : e = [] ∨ e = ['\n']) :
    capOpt "-level".toList (Re.plus Unicode.isDigit) e = [(none, e)] ∧ Re.NotStart Unicode.isDigit e := by
  rcases he with rfl | rfl
  · exact ⟨rfl, fun c r h => by cases h⟩
  · exact ⟨rfl, fun c r h => by cases h; rfl⟩

theorem level_run (d : Option (List Char)) (hd : ∀ l, d = some l → l ≠ [] ∧ ∀ c ∈ l, Unicode.isDigit c = true) (e : List Char)
    (he : e = [] ∨ e = ['\n']) :
    ∃ tl, (capOpt "-level".toList (Re.plus Unicode.isDigit) (optText "-level".toList d ++ e)).filter (fun m3 => atEnd m3.2) = (d, e) :: tl := by
  have hae : atEnd e = true := by rcases he with rfl | rfl <;> rfl
  cases d with
  | none => exact ⟨[], by rw [show optText "-level".toList none ++ e = e from rfl, (level_ends e he).1]; simp [hae]⟩
  | some l =>
    obtain ⟨h1, h2⟩ := hd l rfl
    obtain ⟨tl, h⟩ := Re.plus_run Unicode.isDigit l e h1 h2 (level_ends e he).2
    obtain ⟨tl', h'⟩ := capOpt_some "-level".toList (Re.plus Unicode.isDigit) l e tl h
    refine ⟨tl'.filter (fun m3 => atEnd m3.2), ?_⟩
    simp only [optText]
    rw [h', List.filter_cons_of_pos (by exact hae)]

theorem type_run (ty d : Option (List Char)) (ht : ∀ t, ty = some t → ∃ w ∈ types, t = w.toList) (e : List Char)
    (he : e = [] ∨ e = ['\n']) :
    ∃ tl, capOpt "-".toList (words types) (optText ['-'] ty ++ (optText "-level".toList d ++ e)) =
      (ty, optText "-level".toList d ++ e) :: tl := by
  cases ty with
  | some t =>
    obtain ⟨w, hw, rfl⟩ := ht t rfl
    simp only [optText]
    exact capOpt_some ['-'] (words types) w.toList _ [] (words_types w hw _)
  | none =>
    cases d with
    | none => rcases he with rfl | rfl <;> exact ⟨[], rfl⟩
    | some l => exact ⟨[], rfl⟩

theorem rowMatches_run (w : String) (hw : w ∈ tags) (ty d : Option (List Char)) (ht : ∀ t, ty = some t → ∃ w ∈ types, t = w.toList)
    (hd : ∀ l, d = some l → l ≠ [] ∧ ∀ c ∈ l, Unicode.isDigit c = true) (e : List Char) (he : e = [] ∨ e = ['\n']) :
    ∃ tl, rowMatches (w.toList ++ optText ['-'] ty ++ optText "-level".toList d ++ e) = (w.toList, ty, d) :: tl := by
  obtain ⟨tl1, h1⟩ := type_run ty d ht e he
  obtain ⟨tl2, h2⟩ := level_run d hd e he
  unfold rowMatches
  rw [show w.toList ++ optText ['-'] ty ++ optText "-level".toList d ++ e = w.toList ++ (optText ['-'] ty ++ (optText "-level".toList d ++ e)) by simp]
  rw [words_tags w hw]
  simp only [List.flatMap_cons, List.flatMap_nil, List.append_nil]
  rw [h1]
  simp only [List.flatMap_cons]
  rw [h2]
  exact ⟨_, rfl⟩

end Benker
