import Verif.Proofs.BoundsAsRead
import Verif.Props.Grammar

/-!
# C39: what every line of the bounds does

`C39_bounds_as_written_partial` is about the lines that are read as they are written.  Here are all the
lines that begin with a name or with a number: what the reader makes of them, whatever they were meant
to say.
-/

namespace Bx.Parser

open Params (D)

/-- C39: what the reader makes of the lines of the bounds, in any number, in any order and with any
operators.  The last line about a variable decides: `x op b` gives 0 and `b`, `a op x op' b` gives `a`
and `b`, `x` alone gives the least and the largest `int`, and `a op x` gives `a` and the largest `int`
and takes the next word with it.  The rest of the problem does not change. -/
theorem C39_every_line_as_read (scan : Token → Option D) (hs : ∀ t, Reserved t → scan t = none)
    (val : Token → Rat) (ival : Token → Int) (f : File) (ok : FileOk scan val ival f)
    (ls : List AnyLine) (okl : ∀ l ∈ ls, l.Ok scan ival f.names) (text : List Char)
    (h : Denotes text (f.tokensWith ls)) (ho : ['['] ∉ f.tokensWith ls ∨ StarsOk (f.tokensWith ls))
    (fuel : Nat) (hf : (f.tokensWith ls).length < fuel) :
    makeProblem scan fuel text =
      .ok { f.problem val ival with values := f.names.map (f.valueWith ival ls) } := by
  rw [makeProblem_denotes hs h ho]
  exact parse_lines ok okl hf

/-- C39 is false of every line with another operator than `<=`: the operators of the bounds are not
looked at.  Two texts the bounds of which differ by their operators only are read as the same
problem. -/
theorem C39_operators_do_not_matter (scan : Token → Option D) (hs : ∀ t, Reserved t → scan t = none)
    (val : Token → Rat) (ival : Token → Int) (f : File) (ok : FileOk scan val ival f)
    (ls ls' : List AnyLine) (okl : ∀ l ∈ ls, l.Ok scan ival f.names)
    (hl : List.Forall₂ AnyLine.SameButOperators ls ls') (text text' : List Char)
    (h : Denotes text (f.tokensWith ls)) (ho : ['['] ∉ f.tokensWith ls ∨ StarsOk (f.tokensWith ls))
    (h' : Denotes text' (f.tokensWith ls'))
    (ho' : ['['] ∉ f.tokensWith ls' ∨ StarsOk (f.tokensWith ls')) (fuel : Nat)
    (hf : (f.tokensWith ls).length < fuel) (hf' : (f.tokensWith ls').length < fuel) :
    makeProblem scan fuel text = makeProblem scan fuel text' := by
  have h1 : ∀ a b : AnyLine, a.SameButOperators b → a.name = b.name ∧ a.range ival = b.range ival ∧
      (a.Ok scan ival f.names → b.Ok scan ival f.names) := by
    intro a b hab
    cases a <;> cases b <;> simp only [AnyLine.SameButOperators] at hab
    · obtain ⟨rfl, rfl⟩ := hab; exact ⟨rfl, rfl, id⟩
    · obtain ⟨rfl, rfl, rfl⟩ := hab; exact ⟨rfl, rfl, id⟩
    · subst hab; exact ⟨rfl, rfl, id⟩
    · obtain ⟨rfl, rfl, rfl⟩ := hab; exact ⟨rfl, rfl, id⟩
  have okl' : ∀ l ∈ ls', l.Ok scan ival f.names := by
    clear h h' ho ho' hf hf'
    induction hl with
    | nil => simp
    | cons hab _ ih =>
      intro l hm
      rcases List.mem_cons.mp hm with rfl | hm
      · exact (h1 _ _ hab).2.2 (okl _ List.mem_cons_self)
      · exact ih (fun l hl => okl l (List.mem_cons_of_mem _ hl)) l hm
  have h2 : ∀ x, lastRange ival ls x = lastRange ival ls' x := by
    intro x
    have h3 : List.Forall₂ AnyLine.SameButOperators (ls.filter fun l => l.name = x)
        (ls'.filter fun l => l.name = x) := by
      clear h h' ho ho' hf hf' okl okl'
      induction hl with
      | nil => exact .nil
      | @cons a b _ _ hab _ ih =>
        by_cases hx : a.name = x
        · rw [List.filter_cons_of_pos (by simpa using hx),
            List.filter_cons_of_pos (by simpa [← (h1 _ _ hab).1] using hx)]
          exact .cons hab ih
        · rw [List.filter_cons_of_neg (by simpa using hx),
            List.filter_cons_of_neg (by simpa [← (h1 _ _ hab).1] using hx)]
          exact ih
    unfold lastRange
    revert h3
    generalize (ls.filter fun l => l.name = x) = A
    generalize (ls'.filter fun l => l.name = x) = B
    intro h3
    have h4 := List.rel_reverse h3
    rw [List.getLast?_eq_head?_reverse, List.getLast?_eq_head?_reverse]
    revert h4
    generalize A.reverse = A'
    generalize B.reverse = B'
    intro h4
    cases h4 with
    | nil => rfl
    | cons hab _ => exact (h1 _ _ hab).2.1
  rw [C39_every_line_as_read scan hs val ival f ok ls okl text h ho fuel hf,
    C39_every_line_as_read scan hs val ival f ok ls' okl' text' h' ho' fuel hf']
  unfold File.valueWith
  simp only [h2]

/-- C39: a line `a op x op' b` with `a` over `b` is refused, whatever its operators, after any lines and
whatever follows.  It is an error when the operators are `<=`; `a >= x >= b` is refused too. -/
theorem C39_decreasing_is_refused (scan : Token → Option D) (hs : ∀ t, Reserved t → scan t = none)
    (val : Token → Rat) (ival : Token → Int) (f : File) (ok : FileOk scan val ival f)
    (ls : List AnyLine) (okl : ∀ l ∈ ls, l.Ok scan ival f.names) (a b : Number) (o o' : OpWord)
    (x : Token) (okx : NameOk scan x) (oka : IntOk scan ival a.num) (okb : IntOk scan ival b.num)
    (hlt : b.value ival < a.value ival) (rest : List Token) (text : List Char)
    (h : Denotes text (f.start (ls.flatMap AnyLine.tokens ++ ((AnyLine.two a o x o' b).tokens ++ rest))))
    (ho : ['['] ∉ f.start (ls.flatMap AnyLine.tokens ++ ((AnyLine.two a o x o' b).tokens ++ rest)) ∨
      StarsOk (f.start (ls.flatMap AnyLine.tokens ++ ((AnyLine.two a o x o' b).tokens ++ rest))))
    (fuel : Nat)
    (hf : (f.start (ls.flatMap AnyLine.tokens ++
      ((AnyLine.two a o x o' b).tokens ++ rest))).length < fuel) :
    makeProblem scan fuel text = .error (.status .badBound) := by
  rw [makeProblem_denotes hs h ho]
  exact parse_decreasing ok okl okx oka okb hlt hf

/-! ### A text with every form of line -/

/-- `maximize x + y + z subject to x + y + z <= 1`, `y` being general. -/
def blFile : File :=
  { type := .maximize
    label := none
    obj := [tm none none "x", tm (some false) none "y", tm (some false) none "z"]
    cons := some [⟨none, [tm none none "x", tm (some false) none "y", tm (some false) none "z"],
      .le, ⟨none, "1".toList⟩⟩]
    bounds := none
    binary := none
    general := some ["y".toList] }

/-- `x >= 5`, `2 = y >= 3`, `z`, `- 4 <= x` with the next word, `y`. -/
def blLines : List AnyLine :=
  [.one "x".toList .ge ⟨none, "5".toList⟩, .two ⟨none, "2".toList⟩ .eq "y".toList .ge ⟨none, "3".toList⟩,
    .bare "z".toList, .left ⟨some true, "4".toList⟩ .le "x".toList "y".toList]

/-- The text of this file. -/
def blText : List Char :=
  lines ["maximize x + y + z", "subject to", "x + y + z <= 1", "bounds", "x >= 5", "2 = y >= 3", "z",
    "-4 <= x", "y", "general", "y", "end"]

theorem blFile_ok : FileOk scanf scanVal scanInt blFile := by decide +kernel

theorem blLines_ok : ∀ l ∈ blLines, l.Ok scanf scanInt blFile.names := by
  intro l hl
  simp only [blLines, List.mem_cons, List.not_mem_nil, or_false] at hl
  rcases hl with rfl | rfl | rfl | rfl
  · exact ⟨by decide +kernel, by decide +kernel, by decide +kernel, by decide +kernel⟩
  · exact ⟨by decide +kernel, by decide +kernel, by decide +kernel, by decide +kernel, by decide +kernel⟩
  · exact ⟨by decide +kernel, by decide +kernel, by decide +kernel⟩
  · exact ⟨by decide +kernel, by decide +kernel, by decide +kernel, by decide +kernel⟩

theorem blText_denotes : Denotes blText (blFile.tokensWith blLines) := by
  refine ⟨by decide +kernel, ?_, .inl (by decide +kernel)⟩
  have e : blFile.tokensWith blLines = "maximize".toList :: (((blFile.tokensWith blLines).drop 1).take 5 ++
      "subject".toList :: "to".toList :: (blFile.tokensWith blLines).drop 8) := by decide +kernel
  have e' : tokensOf blText = blFile.tokensWith blLines := by decide +kernel
  rw [e', e]
  exact .subject (x := ("subject", "to")) (by decide) (by decide +kernel) (by decide) (by decide)
    (by decide) (by decide) (by decide) (forall2_of (by decide +kernel))

/-- `x` has -4 and no upper bound although `x >= 5` was written before, `y` has 2 and 3 with an
equality, `z` alone has no bound, and the line `y` was lost. -/
example : (makeProblem scanf 100 blText).map PProblem.values =
    .ok [⟨-4, intMax, .real⟩, ⟨2, 3, .general⟩, ⟨intMin, intMax, .real⟩] := by
  rw [C39_every_line_as_read scanf scanf_reserved scanVal scanInt blFile blFile_ok blLines blLines_ok
    blText blText_denotes (.inl (by decide +kernel)) 100 (by decide +kernel)]
  decide +kernel

/-- Another text, with other operators. -/
example : List.Forall₂ AnyLine.SameButOperators blLines
    [.one "x".toList .le ⟨none, "5".toList⟩,
      .two ⟨none, "2".toList⟩ .le "y".toList .le ⟨none, "3".toList⟩, .bare "z".toList,
      .left ⟨some true, "4".toList⟩ .ge "x".toList "y".toList] :=
  .cons ⟨rfl, rfl⟩ (.cons ⟨rfl, rfl, rfl⟩ (.cons rfl (.cons ⟨rfl, rfl, rfl⟩ .nil)))

/-- The hypotheses of `C39_decreasing_is_refused` on the numbers. -/
example : NameOk scanf "x".toList ∧ IntOk scanf scanInt "2".toList ∧ IntOk scanf scanInt "1".toList ∧
    (⟨none, "1".toList⟩ : Number).value scanInt < (⟨none, "2".toList⟩ : Number).value scanInt := by
  decide +kernel

end Bx.Parser
