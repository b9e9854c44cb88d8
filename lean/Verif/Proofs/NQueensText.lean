import Verif.Props.NQueens
import Verif.Props.Writer

/-!
# The text of the n-queens example as a file
-/

namespace Bx.NQueens

open Params (D)
open Bx.Parser

variable {scan : Token → Option D}

/-! ## Names -/

theorem cellName_nat (i j : Nat) :
    cellName ((i : Int), (j : Int)) = 'x' :: '_' :: (decimal i ++ '_' :: decimal j) := by
  unfold cellName intText
  rw [if_neg (by simp), if_neg (by simp)]
  rfl

theorem decimal_inj {i j : Nat} (h : decimal i = decimal j) : i = j := by
  rw [← natOf_decimal i, ← natOf_decimal j, h]

theorem split_at {a b c d : List Char} {s : Char} (ha : s ∉ a) (hc : s ∉ c)
    (h : a ++ s :: b = c ++ s :: d) : a = c ∧ b = d := by
  induction a generalizing c with
  | nil =>
    cases c with
    | nil => simpa using h
    | cons y c =>
      simp only [List.nil_append, List.cons_append, List.cons.injEq] at h
      exact absurd (h.1 ▸ List.mem_cons_self) hc
  | cons x a ih =>
    cases c with
    | nil =>
      simp only [List.nil_append, List.cons_append, List.cons.injEq] at h
      exact absurd (h.1 ▸ List.mem_cons_self) ha
    | cons y c =>
      simp only [List.cons_append, List.cons.injEq] at h
      have := ih (fun hx => ha (List.mem_cons_of_mem _ hx))
        (fun hx => hc (List.mem_cons_of_mem _ hx)) h.2
      exact ⟨by rw [h.1, this.1], this.2⟩

theorem underscore_decimal (n : Nat) : '_' ∉ decimal n := fun h =>
  absurd (decimal_digits n _ h) (by decide)

theorem cellName_inj {i j k l : Nat}
    (h : cellName ((i : Int), (j : Int)) = cellName ((k : Int), (l : Int))) : i = k ∧ j = l := by
  rw [cellName_nat, cellName_nat] at h
  simp only [List.cons.injEq, true_and] at h
  have := split_at (underscore_decimal i) (underscore_decimal k) h
  exact ⟨decimal_inj this.1, decimal_inj this.2⟩

theorem x_reserved (t : List Char) : ¬ Reserved ('x' :: t) := by
  rintro ⟨w, hw, h⟩
  unfold SameWord at h
  have h1 := congrArg List.head? h
  have : ∀ w ∈ sectionWords, (w.toList.map Char.toLower).head? ≠ some 'x' := by decide
  exact this w hw (by rw [← h1]; rfl)

theorem x_inf (t : List Char) : ¬ SameWord ('x' :: t) "inf".toList := by
  intro h
  have h1 := congrArg List.head? h
  exact absurd h1 (by
    rw [show (("inf".toList).map Char.toLower).head? = some 'i' by decide]
    rw [show (('x' :: t).map Char.toLower).head? = some 'x' from rfl]
    decide)

theorem cellName_ok (hx : ∀ t, scan ('x' :: t) = none) {i j : Nat} (hi : (i : Int) ≤ intMax)
    (hj : (j : Int) ≤ intMax) : NameOk scan (cellName ((i : Int), (j : Int))) := by
  have hi' := decimal_length (k := 9) (n := i) (by unfold intMax at hi; omega)
  have hj' := decimal_length (k := 9) (n := j) (by unfold intMax at hj; omega)
  rw [cellName_nat]
  refine ⟨by simp, ?_, x_reserved _, ⟨hx _, x_inf _⟩, ?_⟩
  · intro c hc
    have hdig : ∀ n, ∀ c ∈ decimal n, nameChar c = true := by
      intro n c hc
      rw [nameChar_eq]
      exact numChar_name (digit_numChar (decimal_digits n c hc))
    simp only [List.mem_cons, List.mem_append] at hc
    rcases hc with rfl | rfl | hc | rfl | hc
    · decide
    · decide
    · exact hdig _ c hc
    · decide
    · exact hdig _ c hc
  · simp only [List.length_cons, List.length_append]
    omega

theorem cellName_plain (i j : Nat) : PlainFirst (cellName ((i : Int), (j : Int))) := by
  rw [cellName_nat]
  intro c hc
  simp only [List.head?_cons, Option.mem_def, Option.some.injEq] at hc
  subst hc
  decide

/-! ## The file -/

/-- The squares of the board, a row after another. -/
def cells (n : Nat) : List (Int × Int) := (upTo 0 n).flatMap fun i => (upTo 0 n).map fun j => (i, j)

/-- The term of a square. -/
def cellTerm (p : Int × Int) : Term := ⟨some false, none, some (cellName p)⟩

/-- The constraint of a line. -/
def lineCon (l : Line) : Con :=
  ⟨none, l.cells.map cellTerm, match l.rel with
    | .eqOne => .eq
    | .leOne => .le, ⟨none, decimal 1⟩⟩

/-- The lines of the example. -/
def allLines (n : Nat) : List Line :=
  rowLines n ++ columnLines n ++ diagLeft n ++ diagTop n ++ antiLeft n ++ antiBottom n

/-- The text as a file. -/
def file (n : Nat) : File :=
  { type := .minimize
    label := none
    obj := (cells n).map cellTerm
    cons := some ((allLines n).map lineCon)
    bounds := none
    binary := some ((cells n).map cellName)
    general := none }

/-- A list of squares of the board, without repetition, not empty. -/
structure LineOk (n : Nat) (l : Line) : Prop where
  board : ∀ p ∈ l.cells, OnBoard n p.1 p.2
  nodup : l.cells.Nodup
  some : l.cells ≠ []

theorem walk_ne {cond : Int → Bool} {step : Int} {left : Nat} {i j : Int} (hl : left ≠ 0)
    (hc : cond i = true) : walk cond step left i j ≠ [] := by
  cases left with
  | zero => exact absurd rfl hl
  | succ left => unfold walk; rw [if_pos hc]; simp

theorem lines_ok {n : Nat} (hn : 3 ≤ n) : ∀ l ∈ allLines n, LineOk n l := by
  have hup : upTo 0 n ≠ [] := by
    intro h
    have : (0 : Int) ∈ upTo 0 n := mem_upTo.mpr ⟨by simp, by omega⟩
    rw [h] at this; cases this
  intro l hl
  unfold allLines at hl
  simp only [List.mem_append, or_assoc] at hl
  rcases hl with hl | hl | hl | hl | hl | hl
  · obtain ⟨i, hi, rfl⟩ := List.mem_map.mp hl
    rw [mem_upTo] at hi
    refine ⟨?_, row_nodup n i, by simpa using hup⟩
    intro p hp
    obtain ⟨j, hj, rfl⟩ := List.mem_map.mp hp
    rw [mem_upTo] at hj
    exact ⟨by simpa using hi.1, hi.2, by simpa using hj.1, hj.2⟩
  · obtain ⟨j, hj, rfl⟩ := List.mem_map.mp hl
    rw [mem_upTo] at hj
    refine ⟨?_, col_nodup n j, by simpa using hup⟩
    intro p hp
    obtain ⟨i, hi, rfl⟩ := List.mem_map.mp hp
    rw [mem_upTo] at hi
    exact ⟨by simpa using hi.1, hi.2, by simpa using hj.1, hj.2⟩
  · obtain ⟨d, hd, rfl⟩ := List.mem_map.mp hl
    rw [mem_upTo] at hd
    refine ⟨?_, walk_nodup _ _ _ _ _, walk_ne (by omega) (by simp only [decide_eq_true_eq]; omega)⟩
    rintro ⟨a, b⟩ hp
    have h := (mem_walk_up (lt_stable n)).mp hp
    simp only [decide_eq_true_eq] at h
    unfold OnBoard
    omega
  · obtain ⟨d, hd, rfl⟩ := List.mem_map.mp hl
    rw [mem_upTo] at hd
    refine ⟨?_, walk_nodup _ _ _ _ _, walk_ne (by omega) (by simp)⟩
    rintro ⟨a, b⟩ hp
    have := (nonneg_up (z := 0) (left := n - d.toNat) (a := a) (b := b) (by omega)).mp ⟨hp, le_refl _⟩
    unfold OnBoard
    omega
  · obtain ⟨d, hd, rfl⟩ := List.mem_map.mp hl
    rw [mem_upTo] at hd
    refine ⟨?_, walk_nodup _ _ _ _ _, walk_ne (by omega) (by simp only [decide_eq_true_eq]; omega)⟩
    rintro ⟨a, b⟩ hp
    have h := (mem_walk_down neg_stable).mp hp
    simp only [decide_eq_true_eq] at h
    unfold OnBoard
    omega
  · obtain ⟨d, hd, rfl⟩ := List.mem_map.mp hl
    rw [mem_upTo] at hd
    refine ⟨?_, walk_nodup _ _ _ _ _, walk_ne (by omega) (by simp only [decide_eq_true_eq]; omega)⟩
    rintro ⟨a, b⟩ hp
    have h := (mem_walk_down neg_stable).mp hp
    simp only [decide_eq_true_eq] at h
    unfold OnBoard
    omega

theorem mem_cells {n : Nat} {p : Int × Int} : p ∈ cells n ↔ OnBoard n p.1 p.2 := by
  unfold cells OnBoard
  simp only [List.mem_flatMap, List.mem_map, mem_upTo]
  constructor
  · rintro ⟨i, hi, j, hj, rfl⟩; simp at hi hj; exact ⟨hi.1, hi.2, hj.1, hj.2⟩
  · rintro ⟨h1, h2, h3, h4⟩
    exact ⟨p.1, ⟨by simpa using h1, h2⟩, p.2, ⟨by simpa using h3, h4⟩, rfl⟩

/-- The squares are those of natural coordinates. -/
theorem OnBoard.nat {n : Nat} {i j : Int} (h : OnBoard n i j) :
    ∃ a b : Nat, a < n ∧ b < n ∧ i = a ∧ j = b := by
  obtain ⟨h1, h2, h3, h4⟩ := h
  exact ⟨i.toNat, j.toNat, by omega, by omega, by omega, by omega⟩

theorem board_name_inj {n : Nat} {p q : Int × Int} (hp : OnBoard n p.1 p.2)
    (hq : OnBoard n q.1 q.2) (h : cellName p = cellName q) : p = q := by
  obtain ⟨p1, p2⟩ := p
  obtain ⟨q1, q2⟩ := q
  obtain ⟨a, b, _, _, e1, e2⟩ := hp.nat
  obtain ⟨c, d, _, _, e3, e4⟩ := hq.nat
  simp only at e1 e2 e3 e4
  subst e1 e2 e3 e4
  have := cellName_inj h
  rw [this.1, this.2]

theorem cells_nodup (n : Nat) : (cells n).Nodup := by
  unfold cells
  rw [List.nodup_flatMap]
  refine ⟨fun i _ => row_nodup n i, ?_⟩
  refine (upTo_nodup 0 n).imp ?_
  intro a b hab p hp hq
  obtain ⟨_, _, rfl⟩ := List.mem_map.mp hp
  obtain ⟨_, _, h⟩ := List.mem_map.mp hq
  exact hab (congrArg Prod.fst h).symm

theorem names_nodup {n : Nat} {l : List (Int × Int)} (hl : l.Nodup)
    (hb : ∀ p ∈ l, OnBoard n p.1 p.2) : (l.map cellName).Nodup :=
  List.Nodup.map_on (fun p hp q hq h => board_name_inj (hb p hp) (hb q hq) h) hl

theorem upTo_length (n : Nat) : (upTo 0 n).length = n := by simp [upTo]

theorem cells_length (n : Nat) : (cells n).length = n * n := by
  unfold cells
  rw [List.length_flatMap]
  simp [upTo_length]

theorem upTo_getElem {n i : Nat} (h : i < n) : (upTo 0 n)[i]? = some (i : Int) := by
  unfold upTo
  simp [h]

theorem flatMap_getElem {α β : Type} {f : α → List β} {n : Nat} :
    ∀ {l : List α} {i j : Nat} {a : α}, (∀ x ∈ l, (f x).length = n) → j < n → l[i]? = some a →
      (l.flatMap f)[i * n + j]? = (f a)[j]?
  | [], i, j, a, _, _, h => by simp at h
  | x :: l, 0, j, a, hl, hj, h => by
    simp only [List.getElem?_cons_zero, Option.some.injEq] at h
    subst h
    rw [List.flatMap_cons, Nat.zero_mul, Nat.zero_add,
      List.getElem?_append_left (by rw [hl x List.mem_cons_self]; exact hj)]
  | x :: l, i + 1, j, a, hl, hj, h => by
    have hx := hl x List.mem_cons_self
    rw [List.flatMap_cons, List.getElem?_append_right (by rw [hx, Nat.add_mul]; omega), hx,
      show (i + 1) * n + j - n = i * n + j by rw [Nat.add_mul]; omega]
    exact flatMap_getElem (fun y hy => hl y (List.mem_cons_of_mem _ hy)) hj (by simpa using h)

theorem cells_getElem {n i j : Nat} (hi : i < n) (hj : j < n) :
    (cells n)[i * n + j]? = some ((i : Int), (j : Int)) := by
  unfold cells
  rw [flatMap_getElem (fun x _ => by simp [upTo_length]) hj (upTo_getElem hi), List.getElem?_map,
    upTo_getElem hj]
  rfl

/-! ## The tokens -/

theorem spell_cell (hx : ∀ t, scan ('x' :: t) = none) {n : Nat} (hn : (n : Int) ≤ intMax)
    {p : Int × Int} (hp : OnBoard n p.1 p.2) {c : Char} (hc : blank c = true) :
    Spell (cellName p ++ [c]) [cellName p] := by
  obtain ⟨p1, p2⟩ := p
  obtain ⟨a, b, h1, h2, e1, e2⟩ := hp.nat
  simp only at e1 e2
  subst e1 e2
  exact spell_name (cellName_ok hx (by omega) (by omega)) (cellName_plain a b) hc

theorem spell_line (hx : ∀ t, scan ('x' :: t) = none) {n : Nat} (hn : (n : Int) ≤ intMax) {l : Line}
    (hl : LineOk n l) : Spell (lineText l) (lineCon l).tokens := by
  have key : ∀ cs : List (Int × Int), (∀ p ∈ cs, OnBoard n p.1 p.2) →
      Spell (cs.flatMap fun p => "+ ".toList ++ cellName p ++ [' '])
        ((cs.map cellTerm).flatMap Term.tokens) := by
    intro cs
    induction cs with
    | nil => exact fun _ => Spell.nil
    | cons p cs ih =>
      intro h
      have h0 : Spell ("+ ".toList) [['+']] := spell_const (by decide)
      have h1 := (h0.append (spell_cell hx hn (h p List.mem_cons_self) (c := ' ') (by decide))).append
        (ih fun q hq => h q (List.mem_cons_of_mem _ hq))
      rw [List.flatMap_cons, List.map_cons, List.flatMap_cons]
      rw [← List.append_assoc] at h1
      exact h1
  have h1 := key l.cells hl.board
  unfold lineText
  have ht : (lineCon l).tokens = (l.cells.map cellTerm).flatMap Term.tokens ++
      ((lineCon l).op.tokens ++ [['1']]) := by
    show [] ++ (l.cells.map cellTerm).flatMap Term.tokens ++ (lineCon l).op.tokens ++ _ = _
    rw [List.nil_append, List.append_assoc]
    have : (lineCon l).value.tokens = [['1']] := by
      show [] ++ [decimal 1] = _
      rw [decimal_small (by decide)]; rfl
    rw [this]
  rw [ht]
  refine h1.append ?_
  unfold lineCon
  have he : Spell (" = 1\n".toList) (OpWord.eq.tokens ++ [['1']]) := spell_const (by decide)
  have hl : Spell (" <= 1\n".toList) (OpWord.le.tokens ++ [['1']]) := spell_const (by decide)
  cases l.rel
  · exact he
  · exact hl

theorem spell_lines (hx : ∀ t, scan ('x' :: t) = none) {n : Nat} (hn : (n : Int) ≤ intMax) :
    ∀ {ls : List Line}, (∀ l ∈ ls, LineOk n l) →
      Spell (ls.flatMap lineText) ((ls.map lineCon).flatMap Con.tokens)
  | [], _ => Spell.nil
  | l :: ls, h => by
    rw [List.flatMap_cons, List.map_cons, List.flatMap_cons]
    exact (spell_line hx hn (h l List.mem_cons_self)).append
      (spell_lines hx hn fun m hm => h m (List.mem_cons_of_mem _ hm))

theorem spell_row (hx : ∀ t, scan ('x' :: t) = none) {n : Nat} (hn : (n : Int) ≤ intMax)
    {s : List Char} {st : List Token} (hs : Spell s st) : ∀ {cs : List (Int × Int)},
      (∀ p ∈ cs, OnBoard n p.1 p.2) →
      ∃ b y, (cs.flatMap fun p => ' ' :: s ++ cellName p) ++ ['\n'] = b :: y ∧ blank b = true ∧
        Spell y (cs.flatMap fun p => st ++ [cellName p])
  | [], _ => ⟨'\n', [], rfl, by decide, Spell.nil⟩
  | p :: cs, h => by
    obtain ⟨b, y, he, hb, hy⟩ := spell_row hx hn hs (cs := cs)
      (fun q hq => h q (List.mem_cons_of_mem _ hq))
    refine ⟨' ', s ++ (cellName p ++ [b]) ++ y, ?_, by decide, ?_⟩
    · rw [List.flatMap_cons, List.append_assoc, he]
      simp
    · rw [List.flatMap_cons]
      exact (hs.append (spell_cell hx hn (h p List.mem_cons_self) hb)).append hy

theorem spell_board (hx : ∀ t, scan ('x' :: t) = none) {n : Nat} (hn : (n : Int) ≤ intMax)
    {sep : String} {s : List Char} {st : List Token} (he : sep.toList = ' ' :: s)
    (hs : Spell s st) :
    Spell (boardText sep n) ((cells n).flatMap fun p => st ++ [cellName p]) := by
  have key : ∀ is : List Int, (∀ i ∈ is, 0 ≤ i ∧ i < (n : Int)) →
      Spell (is.flatMap fun i => ((upTo 0 n).flatMap fun j => sep.toList ++ cellName (i, j)) ++ ['\n'])
        ((is.flatMap fun i => (upTo 0 n).map fun j => (i, j)).flatMap fun p => st ++ [cellName p]) := by
    intro is
    induction is with
    | nil => exact fun _ => Spell.nil
    | cons i is ih =>
      intro h
      have hrow : ∀ p ∈ (upTo 0 n).map fun j => (i, j), OnBoard n p.1 p.2 := by
        intro p hp
        obtain ⟨j, hj, rfl⟩ := List.mem_map.mp hp
        rw [mem_upTo] at hj
        have := h i List.mem_cons_self
        exact ⟨this.1, this.2, by simpa using hj.1, hj.2⟩
      obtain ⟨b, y, hb, hbl, hy⟩ := spell_row hx hn hs hrow
      rw [List.flatMap_map] at hb
      rw [List.flatMap_cons, List.flatMap_cons, List.flatMap_append, he, hb]
      have h1 := (Spell.blank hbl).append hy
      rw [List.nil_append] at h1
      exact h1.append (ih fun i hi => h i (List.mem_cons_of_mem _ hi) |> fun x => x) |> fun x => by
        simpa only [he, List.singleton_append] using x
  exact key (upTo 0 n) fun i hi => by
    rw [mem_upTo] at hi
    exact ⟨by simpa using hi.1, hi.2⟩

theorem cellTerm_tokens (p : Int × Int) : (cellTerm p).tokens = [['+'], cellName p] := rfl

theorem file_tokens (n : Nat) : (file n).tokens =
    ["minimize".toList] ++ ((cells n).flatMap fun p => [['+']] ++ [cellName p]) ++
    ["subject".toList, "to".toList] ++
    ((rowLines n ++ columnLines n).map lineCon).flatMap Con.tokens ++ [] ++
    ((diagLeft n ++ diagTop n).map lineCon).flatMap Con.tokens ++ [] ++
    ((antiLeft n ++ antiBottom n).map lineCon).flatMap Con.tokens ++ ["binary".toList] ++
    ((cells n).flatMap fun p => [] ++ [cellName p]) ++ ["end".toList] := by
  unfold File.tokens file allLines
  generalize "subject".toList = w1
  generalize "to".toList = w2
  generalize "binary".toList = w3
  generalize "end".toList = w4
  rw [show "minimize".toList = typeWord .minimize from rfl]
  generalize typeWord .minimize = w5
  simp only [labelTokens, objTokens, sectionTokens, Option.toList_none,
    List.flatMap_nil, List.append_nil, List.nil_append, List.map_append, List.flatMap_append,
    List.append_assoc, List.cons_append, List.flatMap_map, cellTerm_tokens]

theorem text_spell (hx : ∀ t, scan ('x' :: t) = none) {n : Nat} (h3 : 3 ≤ n)
    (hn : (n : Int) ≤ intMax) : ∃ t, text n = .ok t ∧ Spell t (file n).tokens := by
  have hok := lines_ok h3
  have hplus : Spell ("+ ".toList) [['+']] := spell_const (by decide)
  have hsp : Spell [' '] [] := Spell.blank (by decide)
  have hnl : Spell ['\n'] [] := Spell.blank (by decide)
  have h1 : Spell ("minimize\n".toList) ["minimize".toList] := spell_const (by decide)
  have h2 := spell_board (sep := " + ") hx hn rfl hplus
  have h3' : Spell ("\nsubject to\n".toList) ["subject".toList, "to".toList] :=
    spell_const (by decide)
  have h4 := spell_lines hx hn (ls := rowLines n ++ columnLines n)
    (fun l hl => hok l (by unfold allLines; simp only [List.mem_append] at hl ⊢; tauto))
  have h5 := spell_lines hx hn (ls := diagLeft n ++ diagTop n)
    (fun l hl => hok l (by unfold allLines; simp only [List.mem_append] at hl ⊢; tauto))
  have h6 := spell_lines hx hn (ls := antiLeft n ++ antiBottom n)
    (fun l hl => hok l (by unfold allLines; simp only [List.mem_append] at hl ⊢; tauto))
  have h7 : Spell ("\nbinary\n".toList) ["binary".toList] := spell_const (by decide)
  have h8 := spell_board (sep := "  ") hx hn rfl hsp
  have h9 : Spell ("\nend\n".toList) ["end".toList] := spell_const (by decide)
  have hall := ((((((((((h1.append h2).append h3').append h4).append hnl).append h5).append
    hnl).append h6).append h7).append h8).append h9)
  rw [← file_tokens] at hall
  exact ⟨_, if_neg (by omega), hall⟩

end Bx.NQueens
