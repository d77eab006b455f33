import Verif.Spec.Formex
import Verif.Model.FormexFinal
import Verif.Lemmas.Except
import Verif.Lemmas.Dict
import Verif.Lemmas.FormexFinal
import Verif.Props.CalsRefused

/-! C50: grouping in blocks. -/

namespace Benker
open FmxSpec Fmx

theorem inBlocksList_append (k : Nat) (l l' : List Node) : inBlocksList k (l ++ l') = inBlocksList k l ++ inBlocksList k l' := by
  induction l with
  | nil => rfl
  | cons n ns ih => simp [inBlocksList, ih]

/-- what the open blocks contain -/
def flatOpen : Open → List (Nat × Node)
  | [] => []
  | cs :: rest => flatOpen rest ++ inBlocksList rest.length cs

theorem flatOpen_push (k : Nat) (o : Open) : flatOpen (o.push k) = flatOpen o ∧ (o.push k).length = o.length + k := by
  induction k generalizing o with
  | zero => exact ⟨rfl, rfl⟩
  | succ k ih =>
    obtain ⟨h1, h2⟩ := ih ([] :: o)
    refine ⟨by rw [Open.push, h1]; simp [flatOpen, inBlocksList], by rw [Open.push, h2]; simp; omega⟩

theorem inBlocks_blk (k : Nat) (cs : List Node) : inBlocks k (blkElem cs) = inBlocksList (k + 1) cs := by
  unfold blkElem inBlocks
  rw [if_pos (show f "BLK" = name "BLK" from rfl)]

theorem flatOpen_close (o : Open) (h : 2 ≤ o.length) : flatOpen o.close = flatOpen o ∧ o.close.length + 1 = o.length := by
  match o, h with
  | cs :: parent :: rest, _ =>
    simp [Open.close, flatOpen, inBlocksList_append, inBlocksList, inBlocks_blk]

theorem flatOpen_pop (k : Nat) (o : Open) (h : k + 1 ≤ o.length) : flatOpen (o.pop k) = flatOpen o ∧ (o.pop k).length + k = o.length := by
  induction k generalizing o with
  | zero => exact ⟨rfl, rfl⟩
  | succ k ih =>
    obtain ⟨h1, h2⟩ := flatOpen_close o (by omega)
    obtain ⟨h3, h4⟩ := ih o.close (by omega)
    exact ⟨by rw [Open.pop, h3, h1], by rw [Open.pop]; omega⟩

theorem flatOpen_toLevel (k : Nat) (o : Open) : flatOpen (o.toLevel k) = flatOpen o ∧ (o.toLevel k).length = k + 1 := by
  unfold Open.toLevel
  split
  · obtain ⟨h1, h2⟩ := flatOpen_push (k + 1 - o.length) o
    exact ⟨h1, by omega⟩
  · obtain ⟨h1, h2⟩ := flatOpen_pop (o.length - (k + 1)) o (by omega)
    exact ⟨h1, by omega⟩

theorem flatOpen_add (n : Node) (o : Open) (h : 1 ≤ o.length) :
    flatOpen (o.add n) = flatOpen o ++ inBlocks (o.length - 1) n ∧ (o.add n).length = o.length := by
  match o, h with
  | cs :: rest, _ => simp [Open.add, flatOpen, inBlocksList_append, inBlocksList]

theorem inBlocks_leaf {n : Node} (h : n.tag? ≠ some (name "BLK")) (k : Nat) : inBlocks k n = [(k, n)] := by
  cases n with
  | elem t a x cs tl =>
    unfold inBlocks
    rw [if_neg (by intro e; exact h (by rw [← e]; rfl))]
  | pi => rfl
  | comment => rfl

/-- how a child of a `CORPUS` is placed -/
def Placed (cfg : Config) (p : Node × Node) (n : Node) : Prop :=
  if isPi p.1 then n = p.2 else placedNode cfg p.1 p.2 = .ok n

theorem tag_typedRow (ty : Option String) (row : Node) : (typedRow ty row).tag? = row.tag? := by
  cases ty <;> cases row <;> rfl

theorem titleElem_tag {cfg : Config} {tag : String} {raw row n : Node} (h : titleElem cfg tag raw row = .ok n) : n.tag? = some (f tag) := by
  unfold titleElem at h
  obtain ⟨p, _, h⟩ := bind_ok h
  cases h
  rfl

theorem placed_leaf {cfg : Config} {p : Node × Node} {n : Node} (hp : p.2.tag? ≠ some (name "BLK")) (h : Placed cfg p n) :
    n.tag? ≠ some (name "BLK") := by
  unfold Placed at h
  split at h
  · rw [h]; exact hp
  · unfold placedNode at h
    split at h
    · cases h; rw [tag_typedRow]; exact hp
    · rename_i hr
      rw [titleElem_tag h]
      have := guess_tag (p.1.attr (cfg.q "rowstyle"))
      intro e
      unfold infoOf at e
      injection e with e
      injection e with e1 e2
      rw [e2] at this
      revert this; decide

theorem levels_cons (lv : Node → Nat) (cur : Nat) (n : Node) (ns : List Node) :
    levels lv cur (n :: ns) = (if isPi n then cur else lv n) :: levels lv (if isPi n then cur else lv n) ns := by
  cases n <;> rfl

/-- the loop puts every child at its level, in order -/
theorem groupRows_flat (cfg : Config) (rows : List (Node × Node)) (hb : ∀ p ∈ rows, p.2.tag? ≠ some (name "BLK")) (o o' : Open)
    (ho : 1 ≤ o.length) (h : groupRows cfg o rows = .ok o') :
    1 ≤ o'.length ∧ ∃ placed, All₂ (Placed cfg) rows placed ∧
      flatOpen o' = flatOpen o ++ (levels (fun n => (infoOf cfg n).level) (o.length - 1) (rows.map (·.1))).zip placed := by
  induction rows generalizing o with
  | nil => cases h; exact ⟨ho, [], .nil, by simp [levels]⟩
  | cons p rows ih =>
    obtain ⟨raw, row⟩ := p
    unfold groupRows at h
    split at h
    · rename_i hp
      obtain ⟨h1, h2⟩ := flatOpen_add row o ho
      obtain ⟨h3, placed, h4, h5⟩ := ih (fun q hq => hb q (by simp [hq])) (o.add row) (by omega) h
      refine ⟨h3, row :: placed, .cons (by simp [Placed, hp]) h4, ?_⟩
      rw [h5, h1, h2, List.map_cons, levels_cons, if_pos hp, inBlocks_leaf (hb (raw, row) (by simp))]
      simp
    · rename_i hp
      obtain ⟨n, hn, h⟩ := bind_ok h
      have hpl : Placed cfg (raw, row) n := by simp [Placed, hp, hn]
      obtain ⟨g1, g2⟩ := flatOpen_toLevel (infoOf cfg raw).level o
      obtain ⟨h1, h2⟩ := flatOpen_add n (o.toLevel (infoOf cfg raw).level) (by omega)
      obtain ⟨h3, placed, h4, h5⟩ := ih (fun q hq => hb q (by simp [hq])) _ (by omega) h
      refine ⟨h3, n :: placed, .cons hpl h4, ?_⟩
      rw [h5, h1, h2, g1, g2, List.map_cons, levels_cons, if_neg hp, inBlocks_leaf (placed_leaf (hb (raw, row) (by simp)) hpl)]
      simp

theorem isElem_iff {s : String} {n : Node} : isElem s n = true ↔ n.tag? = some (name s) := by
  unfold isElem; exact decide_eq_true_iff

theorem insertBlkList_ok {cfg : Config} {cs cs' : List Node} (h : insertBlkList cfg cs = .ok cs') :
    All₂ (fun c d => insertBlk cfg c = .ok d) cs cs' := by
  induction cs generalizing cs' with
  | nil => unfold insertBlkList at h; cases h; exact .nil
  | cons c cs ih =>
    unfold insertBlkList at h
    obtain ⟨d, hd, h⟩ := bind_ok h
    obtain ⟨ds, hds, h⟩ := bind_ok h
    cases h
    exact .cons hd (ih hds)

/-- outside `CORPUS` an element keeps its name, its attributes, its texts; its children are treated one by one -/
theorem C50_elsewhere (cfg : Config) (t : QName) (a : Dict QName String) (x : Option String) (cs : List Node) (tl : Option String) (out : Node)
    (ht : t ≠ name "CORPUS") (h : insertBlk cfg (.elem t a x cs tl) = .ok out) :
    ∃ cs', out = .elem t a x cs' tl ∧ All₂ (fun c d => insertBlk cfg c = .ok d) cs cs' := by
  unfold insertBlk at h
  obtain ⟨cs', h1, h⟩ := bind_ok h
  rw [if_neg (by exact ht)] at h
  cases h
  exact ⟨cs', rfl, insertBlkList_ok h1⟩

theorem insertBlk_tag {cfg : Config} {n out : Node} (h : insertBlk cfg n = .ok out) : out.tag? = n.tag? ∧ (isPi n = true → out = n) := by
  cases n with
  | elem t a x cs tl =>
    refine ⟨?_, by intro h; cases h⟩
    unfold insertBlk at h
    obtain ⟨cs', h1, h⟩ := bind_ok h
    split at h
    · obtain ⟨g, _, h⟩ := bind_ok h
      cases h; rfl
    · cases h; rfl
  | pi => unfold insertBlk at h; cases h; exact ⟨rfl, fun _ => rfl⟩
  | comment => unfold insertBlk at h; cases h; exact ⟨rfl, fun _ => rfl⟩

theorem typedRow_kept (type : Option String) (row : Node) : RowKept type row (typedRow type row) := by
  cases type with
  | none =>
    refine ⟨by cases row <;> rfl, by cases row <;> rfl, by cases row <;> rfl, by intro k; cases row <;> simp [typedRow], by cases row <;> rfl, ?_⟩
    intro i c d hc hd
    have : typedRow none row = row := by cases row <;> rfl
    rw [this, hc] at hd
    cases hd
    exact ⟨rfl, rfl, rfl, rfl, by simp⟩
  | some ty =>
    cases row with
    | elem t a x cs tl =>
      refine ⟨rfl, rfl, rfl, ?_, by simp [typedRow, Node.children], ?_⟩
      · intro k
        show Dict.get? (Dict.set a (f "TYPE") ty) k = _
        rw [Dict.get?_set]
        by_cases hk : f "TYPE" = k
        · subst hk; rw [if_pos rfl, if_pos ⟨rfl, rfl, rfl⟩]
        · rw [if_neg hk, if_neg (by rintro ⟨h, _⟩; exact hk h.symm)]; rfl
      · intro i c d hc hd
        have hc : cs[i]? = some c := hc
        have hd : (cs.map (fun c => if isElem "CELL" c then setAttr (f "TYPE") ty c else c))[i]? = some d := hd
        rw [List.getElem?_map, hc] at hd
        simp only [Option.map_some, Option.some.injEq] at hd
        subst hd
        split
        · rename_i hcell
          have hct : c.tag? = some (name "CELL") := isElem_iff.mp hcell
          cases c with
          | elem t' a' x' cs' tl' =>
            refine ⟨rfl, rfl, rfl, rfl, ?_⟩
            intro k
            show Dict.get? (Dict.set a' (f "TYPE") ty) k = _
            rw [Dict.get?_set]
            by_cases hk : f "TYPE" = k
            · subst hk; rw [if_pos rfl, if_pos ⟨rfl, rfl, hct⟩]
            · rw [if_neg hk, if_neg (by rintro ⟨h, _⟩; exact hk h.symm)]; rfl
          | pi => cases hct
          | comment => cases hct
        · rename_i hcell
          have hct : c.tag? ≠ some (name "CELL") := fun h => hcell (isElem_iff.mpr h)
          exact ⟨rfl, rfl, rfl, rfl, fun k => by rw [if_neg (by rintro ⟨_, _, h⟩; exact hct h)]⟩
    | pi => exact ⟨rfl, rfl, rfl, by intro k; simp [typedRow, Node.tag?], rfl, by intro i c d hc; cases hc⟩
    | comment => exact ⟨rfl, rfl, rfl, by intro k; simp [typedRow, Node.tag?], rfl, by intro i c d hc; cases hc⟩

theorem filled_iff (c : Node) : filled c = true ↔ Filled c := by
  unfold filled Filled isElem
  simp only [Bool.or_eq_true, decide_eq_true_eq, List.any_eq_true]; rfl

theorem pyGetNat_some {α : Type} {l : List α} {i : Nat} {a : α} (h : pyGetNat l i = .ok a) : l[i]? = some a := by
  unfold pyGetNat at h
  cases hl : l[i]? with
  | none => rw [hl] at h; cases h
  | some b => rw [hl] at h; cases h; rfl

theorem titleSpan_of {cfg : Config} {i : Nat} {c : Node} {span : Int × Int} (h : titleSpan cfg (i + 1) c = .ok span) :
    ∃ start stop : Nat, span = (↑start, ↑stop) ∧ TitleColumns cfg.calsNs i c start stop := by
  unfold titleSpan at h
  have q1 : cfg.q "namest" = ⟨cfg.calsNs, "namest"⟩ := rfl
  have q2 : cfg.q "nameend" = ⟨cfg.calsNs, "nameend"⟩ := rfl
  rw [q1, q2] at h
  unfold TitleColumns
  cases h1 : c.attr ⟨cfg.calsNs, "namest"⟩ with
  | none =>
    rw [h1] at h
    exact ⟨i + 1, i + 1, (Except.ok.inj h).symm, .inr ⟨.inl rfl, rfl, rfl⟩⟩
  | some s =>
    cases h2 : c.attr ⟨cfg.calsNs, "nameend"⟩ with
    | none =>
      rw [h1, h2] at h
      exact ⟨i + 1, i + 1, (Except.ok.inj h).symm, .inr ⟨.inr (.inl rfl), rfl, rfl⟩⟩
    | some e =>
      rw [h1, h2] at h
      simp only at h
      split at h
      · rename_i hne
        obtain ⟨a, ha, h⟩ := bind_ok h
        obtain ⟨b, hb, h⟩ := bind_ok h
        obtain ⟨a', rfl, ha'⟩ := firstInt_ok ha
        obtain ⟨b', rfl, hb'⟩ := firstInt_ok hb
        exact ⟨a', b', (Except.ok.inj h).symm, .inl ⟨s, e, rfl, rfl, hne.1, hne.2, ha', hb'⟩⟩
      · rename_i hne
        refine ⟨i + 1, i + 1, (Except.ok.inj h).symm, .inr ⟨?_, rfl, rfl⟩⟩
        by_cases hs : s = ""
        · exact .inr (.inr (.inl (by rw [hs])))
        · by_cases he : e = ""
          · exact .inr (.inr (.inr (by rw [he])))
          · exact absurd ⟨hs, he⟩ hne

theorem get?_filter_key {d : Dict QName String} (p : QName → Bool) (k : QName) :
    Dict.get? (d.filter (fun q => p q.1)) k = if p k then Dict.get? d k else none := by
  induction d with
  | nil => simp
  | cons q d ih =>
    obtain ⟨a, b⟩ := q
    rw [List.filter_cons, Dict.get?_cons]
    simp only
    by_cases ha : a = k
    · subst ha
      by_cases hp : p a = true
      · simp [hp, Dict.get?_cons]
      · simp only [hp]
        rw [if_neg (by decide), ih]; simp [hp]
    · split
      · rw [Dict.get?_cons, if_neg ha, ih]
      · rw [ih]

theorem titleAttrs_of {row : Node} (start stop : Nat) (hwf : (row.attrs.map (·.1)).Nodup) :
    Dict.get? (titleAttrs row (↑start, ↑stop)) (name "TYPE") = none ∧ ∀ k, k ≠ name "TYPE" → Dict.get? (titleAttrs row (↑start, ↑stop)) k = (row.attr k).or
      (if k = name "COL.START" then some (Cals.intStr start) else if k = name "COL.END" then some (Cals.intStr stop) else none) := by
  have hwf' : Dict.WF (row.attrs.filter (fun p => p.1 ≠ f "TYPE")) := by
    unfold Dict.WF
    exact hwf.sublist (List.Sublist.map _ List.filter_sublist)
  have key : ∀ k, Dict.get? (titleAttrs row (↑start, ↑stop)) k = (if k = name "TYPE" then none else row.attr k).or
      (if k = name "COL.START" then some (Cals.intStr start) else if k = name "COL.END" then some (Cals.intStr stop) else none) := by
    intro k
    unfold titleAttrs
    rw [Dict.get?_update hwf', get?_filter_key (fun q => q ≠ f "TYPE")]
    congr 1
    · by_cases hk : k = name "TYPE"
      · rw [if_pos hk, if_neg (by simp [hk]; rfl)]
      · rw [if_neg hk, if_pos (by simp; exact hk)]; rfl
    · rw [Dict.get?_cons, Dict.get?_cons, Dict.get?_nil]
      simp only [eq_comm (b := k)]; rfl
  refine ⟨?_, fun k hk => by rw [key, if_neg hk]⟩
  rw [key, if_pos rfl]; rfl

theorem titleElem_of {cfg : Config} {tag : String} {raw row n : Node} (h : titleElem cfg tag raw row = .ok n) : TitleOf cfg.calsNs tag raw row n := by
  have htag := titleElem_tag h
  unfold titleElem at h
  obtain ⟨p, hp, h⟩ := bind_ok h
  cases h
  refine ⟨htag, rfl, ?_⟩
  unfold titleSource at hp
  split at hp
  · rename_i i hi
    obtain ⟨c, hc, hp⟩ := bind_ok hp
    obtain ⟨sp, hsp, hp⟩ := bind_ok hp
    obtain ⟨cell, hcell, hp⟩ := bind_ok hp
    cases hp
    rw [List.findIdx?_eq_some_iff_getElem] at hi
    obtain ⟨hl, hf, hb⟩ := hi
    have hc' := pyGetNat_some hc
    obtain ⟨start, stop, rfl, hcols⟩ := titleSpan_of hsp
    refine ⟨i, cell, start, stop, pyGetNat_some hcell, rfl, rfl, .inl ⟨c, hc', ?_, ?_, hcols⟩, titleAttrs_of start stop⟩
    · rw [← filled_iff]
      rw [List.getElem?_eq_getElem hl] at hc'
      cases hc'; exact hf
    · intro j d hj hd
      have := hb j hj
      rw [← filled_iff]
      have hl' : j < (cellsOf raw).length := by omega
      have hd : (cellsOf raw)[j]? = some d := hd
      rw [List.getElem?_eq_getElem hl'] at hd
      cases hd; exact this
  · rename_i hi
    obtain ⟨cell, hcell, hp⟩ := bind_ok hp
    cases hp
    refine ⟨0, cell, 1, 1, pyGetNat_some hcell, rfl, rfl, .inr ⟨rfl, ?_, rfl, rfl⟩, titleAttrs_of 1 1⟩
    intro c hc
    rw [← filled_iff]
    have := List.findIdx?_eq_none_iff.mp hi c hc
    simp [this]

/-- how the child `raw` of a `CORPUS` appears as `n` in the blocks -/
def BlockItem (cfg : Config) (raw n : Node) : Prop :=
  if isPi raw then n = raw
  else ∃ row, insertBlk cfg raw = .ok row ∧
    let info := guessRowInfo (raw.attr (cfg.q "rowstyle"))
    if info.tag = "ROW" then RowKept info.type row n else TitleOf cfg.calsNs info.tag raw row n

theorem blockItem_of {cfg : Config} {raw row n : Node} (h1 : insertBlk cfg raw = .ok row) (h : Placed cfg (raw, row) n) : BlockItem cfg raw n := by
  unfold BlockItem
  unfold Placed at h
  split
  · rename_i hp
    rw [if_pos (by exact hp)] at h
    rw [h]
    exact (insertBlk_tag h1).2 hp
  · rename_i hp
    rw [if_neg (by exact hp)] at h
    refine ⟨row, h1, ?_⟩
    show if (infoOf cfg raw).tag = "ROW" then RowKept (infoOf cfg raw).type row n else TitleOf cfg.calsNs (infoOf cfg raw).tag raw row n
    have h : placedNode cfg raw row = .ok n := h
    unfold placedNode at h
    by_cases hr : (infoOf cfg raw).tag = "ROW"
    · rw [if_pos hr] at h ⊢; cases h
      exact typedRow_kept _ _
    · rw [if_neg hr] at h ⊢
      exact titleElem_of h

theorem zip_items {cfg : Config} {cs cs' : List Node} (h : All₂ (fun c d => insertBlk cfg c = .ok d) cs cs') {placed : List Node}
    (hp : All₂ (Placed cfg) (cs.zip cs') placed) : All₂ (BlockItem cfg) cs placed := by
  induction h generalizing placed with
  | nil => cases hp; exact .nil
  | cons h1 _ ih =>
    cases hp with
    | cons p1 p2 => exact .cons (blockItem_of h1 p1) (ih p2)

theorem zip_fst {R : Node → Node → Prop} {cs cs' : List Node} (h : All₂ R cs cs') : (cs.zip cs').map (·.1) = cs := by
  induction h with
  | nil => rfl
  | cons _ _ ih => simp [ih]

theorem zip_snd_tag {cfg : Config} {cs cs' : List Node} (h : All₂ (fun c d => insertBlk cfg c = .ok d) cs cs')
    (hb : ∀ c ∈ cs, c.tag? ≠ some (name "BLK")) : ∀ p ∈ cs.zip cs', p.2.tag? ≠ some (name "BLK") := by
  induction h with
  | nil => intro p hp; cases hp
  | cons h1 _ ih =>
    intro p hp
    rw [List.zip_cons_cons] at hp
    rcases List.mem_cons.mp hp with rfl | hp
    · simp only; rw [(insertBlk_tag h1).1]; exact hb _ (by simp)
    · exact ih (fun c hc => hb c (by simp [hc])) p hp

/-- After the grouping, the rows of a `CORPUS` come in the same order, each of them in as many blocks as its row style says. -/
theorem C50_blocks (cfg : Config) (a : Dict QName String) (x : Option String) (cs : List Node) (tl : Option String) (out : Node)
    (hb : ∀ c ∈ cs, c.tag? ≠ some (name "BLK")) (h : insertBlk cfg (.elem (name "CORPUS") a x cs tl) = .ok out) :
    ∃ g items, out = .elem (name "CORPUS") a x g tl ∧
      inBlocksList 0 g = (levels (fun n => (guessRowInfo (n.attr (cfg.q "rowstyle"))).level) 0 cs).zip items ∧
      All₂ (BlockItem cfg) cs items := by
  unfold insertBlk at h
  obtain ⟨cs', h1, h⟩ := bind_ok h
  rw [if_pos (show name "CORPUS" = f "CORPUS" from rfl)] at h
  obtain ⟨g, hg, h⟩ := bind_ok h
  cases h
  have hall := insertBlkList_ok h1
  unfold groupChildren at hg
  obtain ⟨o, ho, hg⟩ := bind_ok hg
  obtain ⟨h3, placed, h4, h5⟩ := groupRows_flat cfg _ (zip_snd_tag hall hb) [[]] o (by simp) ho
  obtain ⟨h6, h7⟩ := flatOpen_pop (o.length - 1) o (by omega)
  refine ⟨g, placed, rfl, ?_, zip_items hall h4⟩
  have hl : (o.pop (o.length - 1)).length = 1 := by omega
  generalize o.pop (o.length - 1) = r at *
  match r, hl with
  | [gs], _ =>
    cases hg
    rw [h5, zip_fst hall] at h6
    simpa [flatOpen, inBlocksList, infoOf] using h6

/-- a corpus of three rows: a title of level 1, a row of level 2 after a revision mark, a row of level 0 -/
def blockDemo : Node :=
  let row := fun (style : String) (cells : List Node) => Node.elem (name "ROW") [(⟨none, "rowstyle"⟩, style)] none cells none
  let cell := fun (s : String) => Node.elem (name "CELL") [] (some s) [] none
  .elem (name "CORPUS") [] none
    [row "TI.BLK-level1" [cell "", cell "title"], .pi "change-start" "" none, row "ROW-TOTAL-level2" [cell "a", cell "b"], row "" [cell "c"]] none

def blockCfg : Config := ⟨false, true, none, "mm".toList, id⟩

example : (∀ c ∈ blockDemo.children, c.tag? ≠ some (name "BLK")) ∧
    (match insertBlk blockCfg blockDemo with
      | .ok out => (inBlocksList 0 out.children).map (fun p => (p.1, p.2.tag?.map (·.name), p.2.innerText, p.2.attr (name "TYPE"), p.2.attr (name "COL.START"))) ==
          [(1, some "TI.BLK", "title", none, some "2"), (1, none, "", none, none), (2, some "ROW", "ab", some "TOTAL", none), (0, some "ROW", "c", none, none)]
      | .error _ => false) = true := by
  decide +kernel

mutual
/-- no block, in the blocks of this node, is empty -/
def noEmptyBlock : Node → Bool
  | .elem t _ _ cs _ => t ≠ name "BLK" || (!cs.isEmpty && noEmptyBlockList cs)
  | _ => true
def noEmptyBlockList : List Node → Bool
  | [] => true
  | n :: ns => noEmptyBlock n && noEmptyBlockList ns
end

theorem noEmptyBlockList_append (l l' : List Node) : noEmptyBlockList (l ++ l') = (noEmptyBlockList l && noEmptyBlockList l') := by
  induction l with
  | nil => simp [noEmptyBlockList]
  | cons n ns ih => simp [noEmptyBlockList, ih, Bool.and_assoc]

theorem noEmptyBlock_leaf {n : Node} (h : n.tag? ≠ some (name "BLK")) : noEmptyBlock n = true := by
  cases n with
  | elem t a x cs tl =>
    unfold noEmptyBlock
    have : t ≠ name "BLK" := fun e => h (by rw [← e]; rfl)
    simp [this]
  | pi => rfl
  | comment => rfl

/-- the open blocks contain no empty block, and the innermost one is not empty unless nothing has been put -/
def OpenOk (o : Open) : Prop := (o = [[]] ∨ ∃ n ns rest, o = (n :: ns) :: rest) ∧ ∀ cs ∈ o, noEmptyBlockList cs = true

theorem openOk_close {o : Open} (h : OpenOk o) : OpenOk o.close := by
  obtain ⟨h1, h2⟩ := h
  rcases h1 with rfl | ⟨n, ns, rest, rfl⟩
  · exact ⟨.inl rfl, h2⟩
  · cases rest with
    | nil => exact ⟨.inr ⟨n, ns, [], rfl⟩, h2⟩
    | cons p rest =>
      have hb : noEmptyBlock (blkElem (n :: ns)) = true := by
        unfold blkElem noEmptyBlock
        have := h2 (n :: ns) (by simp)
        simp [this]
      refine ⟨.inr ?_, ?_⟩
      · cases p with
        | nil => exact ⟨_, _, _, rfl⟩
        | cons => exact ⟨_, _, _, rfl⟩
      · intro cs hcs
        simp only [Open.close, List.mem_cons] at hcs
        rcases hcs with rfl | hcs
        · rw [noEmptyBlockList_append, h2 p (by simp)]
          simp [noEmptyBlockList, hb]
        · exact h2 cs (by simp [hcs])

theorem openOk_pop (k : Nat) {o : Open} (h : OpenOk o) : OpenOk (o.pop k) := by
  induction k generalizing o with
  | zero => exact h
  | succ k ih => exact ih (openOk_close h)

theorem openOk_add {o : Open} (hl : 1 ≤ o.length) (h : ∀ cs ∈ o, noEmptyBlockList cs = true) {n : Node} (hn : n.tag? ≠ some (name "BLK")) :
    OpenOk (o.add n) := by
  match o, hl with
  | cs :: rest, _ =>
    refine ⟨.inr ?_, ?_⟩
    · cases cs <;> exact ⟨_, _, _, rfl⟩
    · intro c hc
      simp only [Open.add, List.mem_cons] at hc
      rcases hc with rfl | hc
      · rw [noEmptyBlockList_append, h cs (by simp)]
        simp [noEmptyBlockList, noEmptyBlock_leaf hn]
      · exact h c (by simp [hc])

theorem openOk_push (k : Nat) {o : Open} (h : ∀ cs ∈ o, noEmptyBlockList cs = true) : ∀ cs ∈ o.push k, noEmptyBlockList cs = true := by
  induction k generalizing o with
  | zero => exact h
  | succ k ih =>
    exact ih (o := [] :: o) (by intro cs hcs; rcases List.mem_cons.mp hcs with rfl | hcs; rfl; exact h cs hcs)

theorem openOk_toLevel (k : Nat) {o : Open} (h : OpenOk o) : ∀ cs ∈ o.toLevel k, noEmptyBlockList cs = true := by
  unfold Open.toLevel
  split
  · exact openOk_push _ h.2
  · exact (openOk_pop _ h).2

theorem groupRows_ok (cfg : Config) (rows : List (Node × Node)) (hb : ∀ p ∈ rows, p.2.tag? ≠ some (name "BLK")) (o o' : Open)
    (hl : 1 ≤ o.length) (ho : OpenOk o) (h : groupRows cfg o rows = .ok o') : OpenOk o' := by
  induction rows generalizing o with
  | nil => cases h; exact ho
  | cons p rows ih =>
    obtain ⟨raw, row⟩ := p
    unfold groupRows at h
    split at h
    · have := (flatOpen_add row o hl).2
      exact ih (fun q hq => hb q (by simp [hq])) (o.add row) (by omega) (openOk_add hl ho.2 (hb (raw, row) (by simp))) h
    · rename_i hp
      obtain ⟨n, hn, h⟩ := bind_ok h
      have hpl : Placed cfg (raw, row) n := by simp [Placed, hp, hn]
      have h0 := (flatOpen_toLevel (infoOf cfg raw).level o).2
      have h1 := (flatOpen_add n (o.toLevel (infoOf cfg raw).level) (by omega)).2
      exact ih (fun q hq => hb q (by simp [hq])) _ (by omega)
        (openOk_add (by omega) (openOk_toLevel _ ho) (placed_leaf (hb (raw, row) (by simp)) hpl)) h

/-- The grouping creates no empty block. -/
theorem C50_no_empty_block (cfg : Config) (a : Dict QName String) (x : Option String) (cs : List Node) (tl : Option String) (out : Node)
    (hb : ∀ c ∈ cs, c.tag? ≠ some (name "BLK")) (h : insertBlk cfg (.elem (name "CORPUS") a x cs tl) = .ok out) :
    noEmptyBlockList out.children = true := by
  unfold insertBlk at h
  obtain ⟨cs', h1, h⟩ := bind_ok h
  rw [if_pos (show name "CORPUS" = f "CORPUS" from rfl)] at h
  obtain ⟨g, hg, h⟩ := bind_ok h
  cases h
  have hall := insertBlkList_ok h1
  unfold groupChildren at hg
  obtain ⟨o, ho, hg⟩ := bind_ok hg
  have hok := openOk_pop (o.length - 1) (groupRows_ok cfg _ (zip_snd_tag hall hb) [[]] o (by simp) ⟨.inl rfl, by simp [noEmptyBlockList]⟩ ho)
  generalize o.pop (o.length - 1) = r at *
  show noEmptyBlockList g = true
  split at hg
  · cases hg; exact hok.2 _ (by simp)
  · cases hg; rfl

end Benker
