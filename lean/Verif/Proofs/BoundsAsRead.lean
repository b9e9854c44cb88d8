import Verif.Spec.BoundsAsRead
import Verif.Proofs.Grammar4

/-!
# Reading any line of the bounds
-/

namespace Bx.Parser

open Params (D)

variable {scan : Token → Option D} {val : Token → Rat} {ival : Token → Int}

/-- The bounds of a line, as the reader has them before the conversion. -/
def AnyLine.reals (ival : Token → Int) : AnyLine → D × D
  | .one _ _ b => (.fin 0, .fin ((b.value ival : Int) : Rat))
  | .two a _ _ _ b => (.fin ((a.value ival : Int) : Rat), .fin ((b.value ival : Int) : Rat))
  | .bare _ => (.ninf, .pinf)
  | .left a _ _ _ => (.fin ((a.value ival : Int) : Rat), .pinf)

theorem line_length (b : AnyLine) : 1 ≤ b.tokens.length ∧ b.tokens.length < 10 := by
  have h1 : ∀ o : OpWord, o.tokens.length ≤ 2 := by intro o; cases o <;> decide
  have h3 : ∀ n : Number, n.tokens.length ≤ 2 := by
    rintro ⟨sign, num⟩
    match sign with
    | none | some false | some true => simp [Number.tokens, signTokens]
  match b with
  | .one x o n =>
    have := h1 o
    have := h3 n
    simp only [AnyLine.tokens, List.length_cons, List.length_append]
    omega
  | .two a o x o' n =>
    have := h1 o
    have := h1 o'
    have := h3 n
    have := h3 a
    simp only [AnyLine.tokens, List.length_cons, List.length_append]
    omega
  | .bare x => simp [AnyLine.tokens]
  | .left a o x l =>
    have := h1 o
    have := h3 a
    simp only [AnyLine.tokens, List.length_cons, List.length_append, List.length_nil]
    omega

theorem lines_length (bs : List AnyLine) : bs.length ≤ (bs.flatMap AnyLine.tokens).length := by
  induction bs with
  | nil => simp
  | cons b bs ih =>
    have := (line_length b).1
    rw [List.flatMap_cons, List.length_append, List.length_cons]; omega

/-- The head of a line is not a keyword, not a colon and not an operator. -/
theorem line_head {names : List Token} {b : AnyLine} (ok : b.Ok scan ival names)
    (rest : List Token) : isKeyword ((b.tokens ++ rest).getD 0 []) = false ∧
      (b.tokens ++ rest).getD 0 [] ≠ [':'] ∧
      startsWithOperator ((b.tokens ++ rest).getD 0 []) = false := by
  match b, ok with
  | .one x o n, ⟨_, okx, _, _⟩ => exact ⟨okx.kw, okx.ne (by decide), okx.op⟩
  | .bare x, ⟨_, okx, _⟩ => exact ⟨okx.kw, okx.ne (by decide), okx.op⟩
  | .two a o x o' n, ⟨_, _, oka, _, _⟩ =>
    obtain ⟨h, r, eh, _, _, _, h2, h1, h3, -⟩ := number_head oka.ok
      (o.tokens ++ x :: (o'.tokens ++ (n.tokens ++ rest)))
    have e : (AnyLine.two a o x o' n).tokens ++ rest = h :: r := by
      rw [← eh]; simp [AnyLine.tokens]
    rw [e]
    exact ⟨h1, h2, h3⟩
  | .left a o x l, ⟨_, _, oka, _⟩ =>
    obtain ⟨h, r, eh, _, _, _, h2, h1, h3, -⟩ := number_head oka.ok
      (o.tokens ++ x :: l :: rest)
    have e : (AnyLine.left a o x l).tokens ++ rest = h :: r := by
      rw [← eh]; simp [AnyLine.tokens]
    rw [e]
    exact ⟨h1, h2, h3⟩

theorem lost_op {t : Token} (h : ∀ c ∈ t.head?, c ≠ '<' ∧ c ≠ '>' ∧ c ≠ '=') :
    startsWithOperator t = false := by
  cases t with
  | nil => rfl
  | cons c t =>
    obtain ⟨h1, h2, h3⟩ := h c rfl
    simp [startsWithOperator, isCharOperator, h1, h2, h3]

/-- After a number, an operator and a name, the rest is read by `readBoundLeft`. -/
theorem readBound_left {a : Number} (oka : IntOk scan ival a.num) (o : OpWord) {x : Token}
    (okx : NameOk scan x) (rest : List Token) :
    readBound scan (fun i => (a.tokens ++ (o.tokens ++ x :: rest)).getD i []) =
      (if !startsWithOperator (rest.getD 0 []) then
        .ok (some ⟨.fin ((a.value ival : Int) : Rat), .pinf, x, a.tokens.length + o.tokens.length + 2⟩)
      else do
        match ← readRight scan (rest.getD 0 []) (rest.getD 1 []) (rest.getD 2 []) (rest.getD 3 []) with
        | none => .ok none
        | some (right, n) =>
          if D.lt right (.fin ((a.value ival : Int) : Rat)) then .ok none
          else .ok (some ⟨.fin ((a.value ival : Int) : Rat), right, x,
            a.tokens.length + o.tokens.length + 1 + n⟩)) := by
  unfold readBound
  obtain ⟨h, r, eh, -, -, -, -, -, -, -, hnum⟩ := number_head oka.ok (o.tokens ++ x :: rest)
  have hl := readLeft_eq o oka.ok rest (a := x)
    (okx.ne (by decide)) (okx.ne (by decide)) (okx.ne (by decide))
  rw [value_cast] at hl
  rw [if_pos (by rw [eh]; exact hnum), hl]
  simp only [pm_ok_bind]
  unfold readBoundLeft
  have g0 : ∀ i, (a.tokens ++ (o.tokens ++ x :: rest)).getD
      (a.tokens.length + o.tokens.length + i) [] = (x :: rest).getD i [] := by
    intro i
    rw [Nat.add_assoc, getD_append_add, getD_append_add]
  have g00 := g0 0
  rw [Nat.add_zero] at g00
  simp only [g00, g0, List.getD_cons_zero, List.getD_cons_succ, okx.read]
  cases startsWithOperator (rest.getD 0 []) <;> rfl

theorem readBound_line {names : List Token} {b : AnyLine} (ok : b.Ok scan ival names)
    {rest : List Token} (hr : startsWithOperator (rest.getD 0 []) = false) :
    readBound scan (fun i => (b.tokens ++ rest).getD i []) =
      .ok (some ⟨(b.reals ival).1, (b.reals ival).2, b.name, b.tokens.length⟩) := by
  match b, ok with
  | .one x o n, ⟨_, okx, hx, okn⟩ =>
    unfold readBound
    have ho := op_head o (n.tokens ++ rest)
    have hrr := readRight_eq o okn.ok rest
    rw [value_cast] at hrr
    have e : (AnyLine.one x o n).tokens ++ rest = x :: (o.tokens ++ (n.tokens ++ rest)) := by
      simp [AnyLine.tokens]
    simp only [e, List.getD_cons_zero]
    rw [if_neg (by rw [not_likeNumber hx]; simp), if_pos okx.starts]
    unfold readBoundName
    simp only [List.getD_cons_zero, List.getD_cons_succ, okx.read]
    rw [if_pos ho, hrr]
    simp [pm_ok_bind, AnyLine.reals, AnyLine.name, AnyLine.tokens]
    omega
  | .bare x, ⟨_, okx, hx⟩ =>
    unfold readBound
    have e : (AnyLine.bare x).tokens ++ rest = x :: rest := rfl
    simp only [e, List.getD_cons_zero]
    rw [if_neg (by rw [not_likeNumber hx]; simp), if_pos okx.starts]
    unfold readBoundName
    simp only [List.getD_cons_zero, List.getD_cons_succ, okx.read, hr]
    rfl
  | .two a o x o' n, ⟨_, okx, oka, okn, hle⟩ =>
    have e : (AnyLine.two a o x o' n).tokens ++ rest =
        a.tokens ++ (o.tokens ++ x :: (o'.tokens ++ (n.tokens ++ rest))) := by
      simp [AnyLine.tokens]
    have ho := op_head o' (n.tokens ++ rest)
    have hrr := readRight_eq o' okn.ok rest
    rw [value_cast] at hrr
    simp only [e]
    rw [readBound_left oka o okx, ho, hrr]
    have hlt : D.lt (.fin ((n.value ival : Int) : Rat)) (.fin ((a.value ival : Int) : Rat)) =
        false := by
      simp only [D.lt, decide_eq_false_iff_not, not_lt]
      exact_mod_cast hle
    simp only [pm_ok_bind]
    rw [hlt]
    simp [AnyLine.reals, AnyLine.name, AnyLine.tokens]
    omega
  | .left a o x l, ⟨_, okx, oka, hl⟩ =>
    have e : (AnyLine.left a o x l).tokens ++ rest =
        a.tokens ++ (o.tokens ++ x :: l :: rest) := by
      simp [AnyLine.tokens]
    simp only [e]
    rw [readBound_left oka o okx, List.getD_cons_zero, lost_op hl]
    simp [AnyLine.reals, AnyLine.name, AnyLine.tokens]
    omega

theorem setBound_line {p : PProblem} (hp : p.names.Nodup) {b : AnyLine}
    (ok : b.Ok scan ival p.names) (V : Token → VarValue) :
    (withValues p V).setBound (b.reals ival).1 (b.reals ival).2 b.name =
      .ok (some (withValues p fun m => if m = b.name then
        { V m with min := (b.range ival).1, max := (b.range ival).2 } else V m)) := by
  have hx : b.name ∈ p.names := by
    match b, ok with
    | .one _ _ _, ok => exact ok.1
    | .two _ _ _ _ _, ok => exact ok.1
    | .bare _, ok => exact ok.1
    | .left _ _ _ _, ok => exact ok.1
  have h0 : IsInt 0 := (by decide : intMin ≤ 0 ∧ 0 ≤ intMax)
  have hb : boundMin (b.reals ival).1 = .ok (b.range ival).1 ∧
      boundMax (b.reals ival).2 = .ok (b.range ival).2 := by
    match b, ok with
    | .one x o n, ⟨_, _, _, okn⟩ =>
      have := toInt_cast h0
      simp only [Int.cast_zero] at this
      exact ⟨this, toInt_cast (value_isInt okn)⟩
    | .two a o x o' n, ⟨_, _, oka, okn, _⟩ =>
      exact ⟨toInt_cast (value_isInt oka), toInt_cast (value_isInt okn)⟩
    | .bare x, _ => exact ⟨rfl, rfl⟩
    | .left a o x l, ⟨_, _, oka, _⟩ => exact ⟨toInt_cast (value_isInt oka), rfl⟩
  unfold PProblem.setBound
  rw [getVariable_mem (p := withValues p V) hx]
  simp only [hb.1, hb.2, pm_ok_bind]
  simp only [withValues]
  rw [map_modify_idxOf hp hx]

/-- What the lines do to the bounds of a variable. -/
def applyLines (ival : Token → Int) (bs : List AnyLine) (m : Token) (v : VarValue) : VarValue :=
  bs.foldl (fun v b => if m = b.name then
    { v with min := (b.range ival).1, max := (b.range ival).2 } else v) v

theorem linesLoop_prefix {p : PProblem} (hp : p.names.Nodup) {rest : List Token}
    (hr : startsWithOperator (rest.getD 0 []) = false) :
    ∀ (bs : List AnyLine) {k : Nat} {V : Token → VarValue},
    (∀ b ∈ bs, b.Ok scan ival p.names) →
    boundLoop listSource scan (k + bs.length) (bs.flatMap AnyLine.tokens ++ rest)
        (withValues p V) =
      boundLoop listSource scan k rest (withValues p fun m => applyLines ival bs m (V m)) := by
  intro bs
  induction bs with
  | nil =>
    intro k V _
    rfl
  | cons b bs ih =>
    intro k V hok
    have ok := hok b List.mem_cons_self
    have hn : startsWithOperator ((bs.flatMap AnyLine.tokens ++ rest).getD 0 []) = false := by
      match bs, hok with
      | [], _ => exact hr
      | c :: cs, hok =>
        rw [List.flatMap_cons, List.append_assoc]
        exact (line_head (hok c (by simp)) _).2.2
    rw [List.flatMap_cons, List.append_assoc, List.length_cons, ← Nat.add_assoc]
    rw [boundLoop]
    rw [if_neg (by
      show ¬ isKeyword ((b.tokens ++ (bs.flatMap AnyLine.tokens ++ rest)).getD 0 []) = true
      rw [(line_head ok _).1]; simp)]
    rw [show listSource.tok (b.tokens ++ (bs.flatMap AnyLine.tokens ++ rest)) =
      fun i => (b.tokens ++ (bs.flatMap AnyLine.tokens ++ rest)).getD i [] from rfl,
      readBound_line ok hn]
    simp only [pm_ok_bind, orStop]
    rw [setBound_line hp ok V]
    simp only [pm_ok_bind]
    rw [popFront_list _ _ (line_length b).1 (line_length b).2]
    simp only [pm_ok_bind]
    rw [ih (fun c hc => hok c (List.mem_cons_of_mem _ hc))]
    rfl

theorem applyLines_eq (bs : List AnyLine) (m : Token) (v : VarValue) :
    applyLines ival bs m v =
      match (bs.filter fun l => l.name = m).getLast? with
      | some l => { v with min := (l.range ival).1, max := (l.range ival).2 }
      | none => v := by
  induction bs using List.reverseRecOn generalizing v with
  | nil => rfl
  | append_singleton bs b ih =>
    unfold applyLines at ih ⊢
    rw [List.foldl_append, ih, List.filter_append]
    by_cases h : b.name = m
    · subst h
      simp only [List.foldl_cons, List.foldl_nil, if_true, decide_true, List.filter_cons_of_pos,
        List.filter_nil, List.getLast?_append, List.getLast?_singleton, Option.some_or]
      split <;> rfl
    · simp only [List.foldl_cons, List.foldl_nil, if_neg fun e : m = b.name => h e.symm]
      simp [h]

theorem keyword_op {w : Token} (hw : w ∈ startWords) : startsWithOperator w = false := by
  have : ∀ w ∈ startWords, startsWithOperator w = false := by decide
  exact this w hw

theorem AtSection.op {l : List Token} (h : AtSection l) : startsWithOperator (l.getD 0 []) = false := by
  obtain ⟨w, hw, r, rfl⟩ := h
  exact keyword_op hw

/-- The parser up to the lines of the bounds. -/
theorem parse_to_lines {f : File} (ok : FileOk scan val ival f) {ls : List AnyLine}
    (okl : ∀ b ∈ ls, b.Ok scan ival f.names) {rest : List Token}
    (hr : startsWithOperator (rest.getD 0 []) = false)
    (hcolon : ls = [] → rest.getD 0 [] ≠ [':']) {fuel : Nat}
    (hf : (f.start (ls.flatMap AnyLine.tokens ++ rest)).length < fuel) :
    ∃ p j, p.names = f.names ∧ fuel = j + ls.length ∧ rest.length < j ∧
      (∀ V, withValues p V = { f.problem val ival with values := f.names.map V }) ∧
      parse listSource scan fuel (f.start (ls.flatMap AnyLine.tokens ++ rest)) =
        (do
          let (s, p) ← boundLoop listSource scan j rest
            (withValues p fun m => applyLines ival ls m ⟨0, intMax, .real⟩)
          let (s, p) ← readBinary listSource fuel s p
          let (s, p) ← readGeneral listSource fuel s p
          readEnd listSource s
          .ok p) := by
  have hat : AtSection ("bounds".toList :: (ls.flatMap AnyLine.tokens ++ rest)) :=
    ⟨_, by decide, _, rfl⟩
  have hat1 := atSection_append (w := "subject".toList) (by decide) ["to".toList] Con.tokens f.cons hat
  have hbl := lines_length ls
  unfold File.start at hf ⊢
  simp only [List.length_cons, List.length_append] at hf
  unfold parse
  rw [readHead_eq ok.label (objTokens_ne ok) hat1]
  simp only [pm_ok_bind]
  rw [objLoop_obj (M := f.names) ok.few hat1.keyword ok.obj ok.signed ok.quad (by omega)
    (by rw [f.names_eq]; exact prefix_addNames _ _)]
  simp only [pm_ok_bind]
  rw [readConstraints_eq ok.few hat (.inl rfl) ok.cons
    (by rw [← f.names_eq]; exact List.prefix_refl _) ok.few_cons
    (by simp only [List.length_cons, List.length_append]; omega), ← f.names_eq]
  simp only [pm_ok_bind]
  generalize hp : partOf f.names f.type f.names (addPairs [] (named val f.linear))
    (constant val f.linear) (quadsOf f.names (addProds [] (f.quads.flatMap (Quad.products val))))
    (select ival f.names .equal (f.cons.getD []).zipIdx)
    (select ival f.names .greater (f.cons.getD []).zipIdx)
    (select ival f.names .less (f.cons.getD []).zipIdx) = p
  have hpn : p.names = f.names := by rw [← hp]; rfl
  have hpv : p = withValues p fun _ => ⟨0, intMax, .real⟩ := by rw [← hp]; rfl
  obtain ⟨j, hj⟩ : ∃ j, fuel = j + ls.length := ⟨fuel - ls.length, by omega⟩
  refine ⟨p, j, hpn, hj, by omega, ?_, ?_⟩
  · intro V
    rw [← hp]
    unfold withValues File.problem partOf
    simp only [collect_eq, collectPairs_eq]
    rfl
  have hc : (ls.flatMap AnyLine.tokens ++ rest).getD 0 [] ≠ [':'] := by
    match ls, hcolon, okl with
    | [], hcolon, _ => exact hcolon rfl
    | b :: bs, _, okb =>
      rw [List.flatMap_cons, List.append_assoc]
      exact (line_head (okb b (by simp)) _).2.1
  have hs : readSection boundsWords "bounds".toList
      ((ls.flatMap AnyLine.tokens ++ rest).getD 0 []) = 1 := readSection_word (by decide) hc
  have hrb : readBounds listSource scan fuel
      ("bounds".toList :: (ls.flatMap AnyLine.tokens ++ rest)) p =
      boundLoop listSource scan j rest
        (withValues p fun m => applyLines ival ls m ⟨0, intMax, .real⟩) := by
    unfold readBounds
    generalize "bounds".toList = w at hs
    show (if readSection boundsWords w ((ls.flatMap AnyLine.tokens ++ rest).getD 0 []) = 0 then _ else
      (popFront listSource (w :: (ls.flatMap AnyLine.tokens ++ rest))
        (readSection boundsWords w ((ls.flatMap AnyLine.tokens ++ rest).getD 0 [])) >>= _)) = _
    rw [hs, if_neg (by decide), popFront_one]
    simp only [pm_ok_bind]
    rw [hj]
    conv_lhs => rw [hpv]
    exact linesLoop_prefix (hpn ▸ FileOk.names_nodup f) hr ls (hpn ▸ okl)
  rw [hrb]

/-- The parser reads a file with any lines in its bounds. -/
theorem parse_lines {f : File} (ok : FileOk scan val ival f) {ls : List AnyLine}
    (okl : ∀ b ∈ ls, b.Ok scan ival f.names) {fuel : Nat} (hf : (f.tokensWith ls).length < fuel) :
    parse listSource scan fuel (f.tokensWith ls) =
      .ok { f.problem val ival with values := f.names.map (f.valueWith ival ls) } := by
  have he : f.tokensWith ls = f.start (ls.flatMap AnyLine.tokens ++ f.tail3 []) := rfl
  rw [he] at hf ⊢
  have hlen : (f.tail3 []).length < fuel := by
    unfold File.start at hf
    simp only [List.length_cons, List.length_append] at hf
    omega
  obtain ⟨p, j, hpn, hj, hlt, hv, hpar⟩ := parse_to_lines ok okl (f.at3 []).op
    (fun _ => (f.at3 []).colon) hf
  have hnd : f.names.Nodup := FileOk.names_nodup f
  have hkw : ∀ x ∈ p.names, isKeyword x = false ∧ x ≠ [':'] := by
    intro x hx
    rw [hpn] at hx
    exact ⟨(ok.name x hx).kw, (ok.name x hx).ne (by decide)⟩
  have h43 : (f.tail4 []).length ≤ (f.tail3 []).length := by
    unfold File.tail3; rw [List.length_append]; omega
  rw [hpar]
  obtain ⟨i, rfl⟩ : ∃ i, j = i + 1 := ⟨j - 1, by omega⟩
  rw [boundLoop, if_pos (show isKeyword (listSource.tok (f.tail3 []) 0) = true from (f.at3 []).keyword)]
  simp only [pm_ok_bind]
  rw [readBinary_eq (hpn ▸ hnd) hkw (hpn ▸ ok.binary) (by omega)]
  simp only [pm_ok_bind]
  rw [readGeneral_eq (hpn ▸ hnd) hkw (hpn ▸ ok.general) (by omega)]
  simp only [pm_ok_bind]
  rw [readEnd_eq]
  simp only [pm_ok_bind]
  rw [hv]
  refine congrArg (fun v => Except.ok { f.problem val ival with values := v })
    (List.map_congr_left ?_)
  intro x _
  rw [applyLines_eq]
  unfold File.valueWith lastRange
  dsimp only
  cases (ls.filter fun l => l.name = x).getLast? <;> rfl

/-- Two numbers of a line that decrease are refused. -/
theorem parse_decreasing {f : File} (ok : FileOk scan val ival f) {ls : List AnyLine}
    (okl : ∀ b ∈ ls, b.Ok scan ival f.names) {a b : Number} {o o' : OpWord} {x : Token}
    (okx : NameOk scan x) (oka : IntOk scan ival a.num) (okb : IntOk scan ival b.num)
    (hlt : b.value ival < a.value ival) {rest : List Token} {fuel : Nat}
    (hf : (f.start (ls.flatMap AnyLine.tokens ++ ((AnyLine.two a o x o' b).tokens ++ rest))).length <
      fuel) :
    parse listSource scan fuel
        (f.start (ls.flatMap AnyLine.tokens ++ ((AnyLine.two a o x o' b).tokens ++ rest))) =
      .error (.status .badBound) := by
  have e : (AnyLine.two a o x o' b).tokens ++ rest =
      a.tokens ++ (o.tokens ++ x :: (o'.tokens ++ (b.tokens ++ rest))) := by
    simp [AnyLine.tokens]
  obtain ⟨h, r, eh, _, _, _, h2, h1, h3, -⟩ := number_head oka.ok
    (o.tokens ++ x :: (o'.tokens ++ (b.tokens ++ rest)))
  obtain ⟨p, j, hpn, hj, hl, hv, hpar⟩ := parse_to_lines ok okl
    (rest := (AnyLine.two a o x o' b).tokens ++ rest) (by rw [e, eh]; exact h3)
    (fun _ => by rw [e, eh]; exact h2) hf
  rw [hpar]
  obtain ⟨i, rfl⟩ : ∃ i, j = i + 1 := ⟨j - 1, by omega⟩
  rw [boundLoop, if_neg (by
    show ¬ isKeyword (((AnyLine.two a o x o' b).tokens ++ rest).getD 0 []) = true
    rw [e, eh]
    show ¬ isKeyword h = true
    rw [h1]; simp)]
  have ho := op_head o' (b.tokens ++ rest)
  have hrr := readRight_eq o' okb.ok rest
  rw [value_cast] at hrr
  have hd : D.lt (.fin ((b.value ival : Int) : Rat)) (.fin ((a.value ival : Int) : Rat)) = true := by
    simp only [D.lt, decide_eq_true_eq]
    exact_mod_cast hlt
  have : readBound scan (listSource.tok ((AnyLine.two a o x o' b).tokens ++ rest)) = .ok none := by
    show readBound scan (fun i => ((AnyLine.two a o x o' b).tokens ++ rest).getD i []) = _
    simp only [e]
    rw [readBound_left oka o okx, ho, hrr]
    simp only [pm_ok_bind]
    rw [hd]
    rfl
  rw [this]
  rfl

end Bx.Parser
