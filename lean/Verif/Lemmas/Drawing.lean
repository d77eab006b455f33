import Verif.Model.Drawing
import Verif.Lemmas.Table
import Verif.Lemmas.Except

namespace Benker.Drawing
open Benker
variable {γ : Type}

/-- the lines of a tile, explicitly -/
def lineTop (l t r : Bool) : List Char :=
  (if t then (if l then '+' else '-') :: List.replicate 11 '-' ++ (if r then ['+'] else [])
   else (if l then '|' else ' ') :: List.replicate 11 ' ' ++ (if r then ['|'] else []))
def lineMid (l r : Bool) (title : List Char) : List Char :=
  (if l then '|' else ' ') :: ' ' :: (title ++ (' ' :: (if r then ['|'] else [])))
def lineBot (l r : Bool) : List Char := (if l then '+' else '-') :: List.replicate 11 '-' ++ (if r then ['+'] else [])

def tileLines (l t r b : Bool) (title : List Char) : List (List Char) :=
  lineTop l t r :: lineMid l r title :: (if b then [lineBot l r] else [])

/-- the text of a tile, explicitly -/
theorem tile_replace (l t r b : Bool) (title : List Char) :
    (TILES (l, t, r, b)).map (replaceStr placeholder title) =
      some (lineTop l t r ++ '\n' :: (lineMid l r title ++ '\n' :: (if b then lineBot l r ++ ['\n'] else []))) := by
  cases l <;> cases t <;> cases r <;> cases b <;>
    simp only [TILES, Option.map_some, Option.some.injEq, replaceStr, lineTop, lineMid, lineBot, List.append_assoc, List.cons_append,
      if_true, Bool.false_eq_true, if_false] <;> rfl

end Benker.Drawing

namespace Benker.Drawing
open Benker
variable {γ : Type}

def NoBreak (s : List Char) : Prop := ∀ c ∈ s, isLineBreak c = false

theorem splitAux_run (a : List Char) (ha : NoBreak a) : ∀ (cur rest : List Char),
    splitAux cur (a ++ '\n' :: rest) = if cur ++ a = [] then splitAux [] rest else (cur ++ a) :: splitAux [] rest := by
  induction a with
  | nil =>
    intro cur rest
    simp only [List.nil_append, List.append_nil, splitAux]
    have : isLineBreak '\n' = true := by decide
    simp [this]
  | cons c a ih =>
    intro cur rest
    have hc : isLineBreak c = false := ha c (by simp)
    simp only [List.cons_append, splitAux, hc, Bool.false_eq_true, if_false]
    rw [ih (fun d hd => ha d (by simp [hd]))]
    simp

theorem noBreak_top (l t r : Bool) : NoBreak (lineTop l t r) := by
  unfold NoBreak; cases l <;> cases t <;> cases r <;> decide
theorem noBreak_bot (l r : Bool) : NoBreak (lineBot l r) := by
  unfold NoBreak; cases l <;> cases r <;> decide
theorem noBreak_mid (l r : Bool) (title : List Char) (h : NoBreak title) : NoBreak (lineMid l r title) := by
  intro c hc
  simp only [lineMid, List.mem_cons, List.mem_append] at hc
  rcases hc with rfl | rfl | hc | rfl | hc
  · cases l <;> decide
  · decide
  · exact h c hc
  · decide
  · revert hc; cases r <;> simp; rintro rfl; decide

theorem top_ne (l t r : Bool) : lineTop l t r ≠ [] := by unfold lineTop; split <;> simp
theorem mid_ne (l r : Bool) (title : List Char) : lineMid l r title ≠ [] := by unfold lineMid; simp
theorem bot_ne (l r : Bool) : lineBot l r ≠ [] := by unfold lineBot; simp

/-- splitting a drawn tile gives its lines -/
theorem tile_split (l t r b : Bool) (title : List Char) (h : NoBreak title) (tile : List Char) (ht : TILES (l, t, r, b) = some tile) :
    tileSplit (replaceStr placeholder title tile) = tileLines l t r b title := by
  have := tile_replace l t r b title
  rw [ht, Option.map_some, Option.some.injEq] at this
  rw [this]
  unfold tileSplit tileLines
  rw [splitAux_run _ (noBreak_top l t r), splitAux_run _ (noBreak_mid l r title h)]
  simp only [List.nil_append, top_ne, mid_ne, if_false]
  cases b
  · rfl
  · simp only [if_true]
    rw [splitAux_run _ (noBreak_bot l r)]
    simp [bot_ne, splitAux]

theorem tiles_some (l t r b : Bool) : ∃ tile, TILES (l, t, r, b) = some tile := by
  cases l <;> cases t <;> cases r <;> cases b <;> exact ⟨_, rfl⟩

theorem centre9_length (s : List Char) : (centre9 s).length = 9 := by
  unfold centre9; simp; omega

theorem noBreak_spaces (n : Nat) : NoBreak (List.replicate n ' ') := by
  intro c hc; rw [List.mem_replicate] at hc; rw [hc.2]; decide

theorem centre9_noBreak (s : List Char) (h : NoBreak s) : NoBreak (centre9 s) := by
  intro c hc
  have := List.mem_of_mem_take hc
  simp only [List.mem_append] at this
  rcases this with (h1 | h1) | h1
  · exact noBreak_spaces _ c h1
  · exact h c h1
  · exact noBreak_spaces _ c h1

/-- box and text drawn at a coordinate -/
def shownBox (g : Grid γ) (p : Coord) : Box :=
  match g.cells.find? (·.hasCoord p) with
  | some c => c.box
  | none => ⟨p, p⟩
def shownText (text : Cell γ → List Char) (g : Grid γ) (p : Coord) : List Char :=
  match g.cells.find? (·.hasCoord p) with
  | some c => text c
  | none => []

/-- the nine characters drawn at a coordinate -/
def shownTitle (text : Cell γ → List Char) (g : Grid γ) (p : Coord) : List Char :=
  if ((shownBox g p).min.x + (shownBox g p).max.x) / 2 = p.x ∧ ((shownBox g p).min.y + (shownBox g p).max.y) / 2 = p.y then
    centre9 (shownText text g p)
  else List.replicate 9 ' '

def leftOf (g : Grid γ) (p : Coord) : Bool := (shownBox g p).min.x = p.x
def topOf (g : Grid γ) (p : Coord) : Bool := (shownBox g p).min.y = p.y

theorem shownTitle_length (text : Cell γ → List Char) (g : Grid γ) (p : Coord) : (shownTitle text g p).length = 9 := by
  unfold shownTitle; split
  · exact centre9_length _
  · simp

theorem shownTitle_noBreak (text : Cell γ → List Char) (g : Grid γ) (ht : ∀ c ∈ g.cells, NoBreak (text c)) (p : Coord) :
    NoBreak (shownTitle text g p) := by
  unfold shownTitle; split
  · apply centre9_noBreak
    unfold shownText
    split
    · rename_i c hc; exact ht c (List.mem_of_find?_eq_some hc)
    · intro c hc; simp at hc
  · exact noBreak_spaces 9

theorem tileAt_run (text : Cell γ → List Char) (g : Grid γ) (bb : Box) (p : Coord) (hp : 1 ≤ p.x ∧ 1 ≤ p.y)
    (ht : ∀ c ∈ g.cells, NoBreak (text c)) :
    ∃ s, tileAt TILES text g bb p.y p.x = .ok s ∧
      tileSplit s = tileLines (leftOf g p) (topOf g p) (decide (bb.max.x = p.x)) (decide (bb.max.y = p.y)) (shownTitle text g p) := by
  have hkey : ∀ (box : Box) (txt : List Char), box = shownBox g p → txt = shownText text g p →
      ∃ s, (match TILES (decide (box.min.x = p.x), decide (box.min.y = p.y), decide (bb.max.x = p.x), decide (bb.max.y = p.y)) with
        | none => .error .keyError
        | some tile =>
          if (box.min.x + box.max.x) / 2 = p.x ∧ (box.min.y + box.max.y) / 2 = p.y then
            .ok (replaceStr placeholder (centre9 txt) tile)
          else .ok (replaceStr placeholder (List.replicate 9 ' ') tile) : Except PyErr (List Char)) = .ok s ∧
      tileSplit s = tileLines (leftOf g p) (topOf g p) (decide (bb.max.x = p.x)) (decide (bb.max.y = p.y)) (shownTitle text g p) := by
    intro box txt hb htx
    subst hb; subst htx
    obtain ⟨tile, hh⟩ := tiles_some (leftOf g p) (topOf g p) (decide (bb.max.x = p.x)) (decide (bb.max.y = p.y))
    have hh' : TILES (decide ((shownBox g p).min.x = p.x), decide ((shownBox g p).min.y = p.y), decide (bb.max.x = p.x),
      decide (bb.max.y = p.y)) = some tile := hh
    rw [hh']
    have hs := tile_split _ _ _ _ (shownTitle text g p) (shownTitle_noBreak text g ht p) tile hh
    refine ⟨replaceStr placeholder (shownTitle text g p) tile, ?_, hs⟩
    simp only [shownTitle]
    split <;> rfl
  unfold tileAt
  have hpc : (⟨p.x, p.y⟩ : Coord) = p := rfl
  cases hf : g.cells.find? (·.hasCoord p) with
  | some c =>
    have h1 : g.contains (.tuple [.int p.x, .int p.y]) = .ok true := by
      show Except.ok (g.cells.any _) = _
      congr 1
      rw [List.any_eq_true]
      exact ⟨c, List.mem_of_find?_eq_some hf, by have := List.find?_some hf; exact this⟩
    have h2 : g.getItem (.tuple [.int p.x, .int p.y]) = .ok c := by
      show g.getCoord p = _
      unfold Grid.getCoord; rw [hf]
    have e1 : c.box = shownBox g p := by unfold shownBox; rw [hf]
    have e2 : text c = shownText text g p := by unfold shownText; rw [hf]
    obtain ⟨s, h3, h4⟩ := hkey c.box (text c) e1 e2
    refine ⟨s, ?_, h4⟩
    rw [← h3]
    simp only [h1, h2, ok_bind, except_pure, if_true]
    rfl
  | none =>
    have h1 : g.contains (.tuple [.int p.x, .int p.y]) = .ok false := by
      show Except.ok (g.cells.any _) = _
      congr 1
      rw [Bool.eq_false_iff]
      intro hh
      obtain ⟨c, hc, hx⟩ := List.any_eq_true.mp hh
      exact List.find?_eq_none.mp hf c hc hx
    have h2 : Box.new [.int p.x, .int p.y] = .ok ⟨p, p⟩ := by
      show Box.make p.x p.y p.x p.y = _
      rw [make_eq_ok (by omega)]
    have e1 : (⟨p, p⟩ : Box) = shownBox g p := by unfold shownBox; rw [hf]
    have e2 : [] = shownText text g p := by unfold shownText; rw [hf]
    obtain ⟨s, h3, h4⟩ := hkey ⟨p, p⟩ [] e1 e2
    refine ⟨s, ?_, h4⟩
    rw [← h3]
    simp only [h1, h2, ok_bind, except_pure, Bool.false_eq_true, if_false]
    rfl

/-- the lines of the row `y` of the drawing -/
def rowText (text : Cell γ → List Char) (g : Grid γ) (bb : Box) (y : Int) : List (List Char) :=
  let xs := pyRange bb.min.x (bb.max.x + 1)
  (xs.flatMap (fun x => lineTop (leftOf g ⟨x, y⟩) (topOf g ⟨x, y⟩) (decide (bb.max.x = x)))) ::
  (xs.flatMap (fun x => lineMid (leftOf g ⟨x, y⟩) (decide (bb.max.x = x)) (shownTitle text g ⟨x, y⟩))) ::
  (if bb.max.y = y then [xs.flatMap (fun x => lineBot (leftOf g ⟨x, y⟩) (decide (bb.max.x = x)))] else [])

theorem rowLines_run (L : List (List Char)) (xs : List Int) (A B C : Int → List Char) (bottom : Bool) (hne : xs ≠ [])
    (h : All₂ (fun x s => tileSplit s = A x :: B x :: (if bottom then [C x] else [])) xs L) :
    rowLines L = .ok (xs.flatMap A :: xs.flatMap B :: (if bottom then [xs.flatMap C] else [])) := by
  have hmap : L.map tileSplit = xs.map (fun x => A x :: B x :: (if bottom then [C x] else [])) := by
    clear hne
    induction h with
    | nil => rfl
    | cons h1 _ ih => simp [h1, ih]
  have hm : ∀ (i : Nat) (F : Int → List Char),
      (∀ x, pyGetNat (A x :: B x :: (if bottom then [C x] else [])) i = .ok (F x)) →
      ((xs.map (fun x => A x :: B x :: (if bottom then [C x] else []))).mapM (fun t => pyGetNat t i)) = .ok (xs.map F) := by
    intro i F hF
    clear hmap h hne
    induction xs with
    | nil => rfl
    | cons x xs ih => rw [List.map_cons, List.mapM_cons, hF, ih]; rfl
  unfold rowLines
  rw [hmap]
  cases xs with
  | nil => exact absurd rfl hne
  | cons x0 xs0 =>
    generalize hxs : x0 :: xs0 = xs at *
    have h0 : pyGetNat (xs.map (fun x => A x :: B x :: (if bottom then [C x] else []))) 0 =
        .ok (A x0 :: B x0 :: (if bottom then [C x0] else [])) := by rw [← hxs]; rfl
    simp only [h0, ok_bind]
    cases bottom with
    | false =>
      simp only [Bool.false_eq_true, if_false, List.length_cons, List.length_nil] at hm ⊢
      have e : List.range (0 + 1 + 1) = [0, 1] := rfl
      rw [e, List.mapM_cons, List.mapM_cons, hm 0 A (fun _ => rfl), hm 1 B (fun _ => rfl)]
      rfl
    | true =>
      simp only [if_true, List.length_cons, List.length_nil] at hm ⊢
      have e : List.range (0 + 1 + 1 + 1) = [0, 1, 2] := rfl
      rw [e, List.mapM_cons, List.mapM_cons, List.mapM_cons, hm 0 A (fun _ => rfl), hm 1 B (fun _ => rfl), hm 2 C (fun _ => rfl)]
      rfl

/-- exact drawing of a non-empty grid -/
theorem iterLines_run (text : Cell γ → List Char) (g : Grid γ) (hinv : g.Inv) (bb : Box) (hbb : g.boundingBox = .ok (some bb))
    (hv : bb.Valid) (ht : ∀ c ∈ g.cells, NoBreak (text c)) :
    iterLines TILES text g = .ok ((pyRange bb.min.y (bb.max.y + 1)).flatMap (rowText text g bb)) := by
  unfold Box.Valid at hv
  have h1 : ∃ rows, iterTiles TILES text g = .ok rows ∧
      All₂ (fun y row => All₂ (fun x s => tileSplit s = tileLines (leftOf g ⟨x, y⟩) (topOf g ⟨x, y⟩)
        (decide (bb.max.x = x)) (decide (bb.max.y = y)) (shownTitle text g ⟨x, y⟩)) (pyRange bb.min.x (bb.max.x + 1)) row)
        (pyRange bb.min.y (bb.max.y + 1)) rows := by
    unfold iterTiles
    rw [hbb]
    apply mapM_ok_of_forall
    intro y hy
    apply mapM_ok_of_forall
    intro x hx
    rw [mem_pyRange] at hx hy
    exact tileAt_run text g bb ⟨x, y⟩ (by simp only; omega) ht
  obtain ⟨rows, hr, hF⟩ := h1
  unfold iterLines
  rw [hr]
  have h2 : rows.mapM rowLines = .ok ((pyRange bb.min.y (bb.max.y + 1)).map (rowText text g bb)) := by
    have hne : pyRange bb.min.x (bb.max.x + 1) ≠ [] := by
      intro he
      have : bb.min.x ∈ pyRange bb.min.x (bb.max.x + 1) := by rw [mem_pyRange]; omega
      rw [he] at this; simp at this
    clear hr
    revert hF
    generalize pyRange bb.min.y (bb.max.y + 1) = ys
    intro hF
    induction hF with
    | nil => rfl
    | cons h1 _ ih =>
      rename_i y row ys rws _
      rw [List.mapM_cons, ih]
      have := rowLines_run row _ (fun x => lineTop (leftOf g ⟨x, y⟩) (topOf g ⟨x, y⟩) (decide (bb.max.x = x)))
        (fun x => lineMid (leftOf g ⟨x, y⟩) (decide (bb.max.x = x)) (shownTitle text g ⟨x, y⟩))
        (fun x => lineBot (leftOf g ⟨x, y⟩) (decide (bb.max.x = x))) (decide (bb.max.y = y)) hne h1
      rw [this]
      simp only [rowText, List.map_cons, decide_eq_true_eq]
      rfl
  show (do let ls ← rows.mapM rowLines; pure ls.flatten : Except PyErr (List (List Char))) = _
  rw [h2]
  simp only [List.flatMap]
  rfl

end Benker.Drawing
