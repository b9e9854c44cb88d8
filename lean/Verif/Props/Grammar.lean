import Verif.Proofs.Grammar4
import Verif.Props.Parser

/-!
# C39, C40, C68: a file is read as it is written

`File` (`Verif.Spec.Grammar`) is a problem file as a tree, `File.tokens` its tokens and `File.problem` the problem that it denotes.  `FileOk` says that it is written
correctly.
-/

namespace Bx.Parser

open Params (D)

/-! ## C68 -/

/-- The tokens of a text are those of a file, up to the case of the keywords, and its quadratic
terms, if it has some, are not written with too many blanks. -/
def Denotes (text : List Char) (ts : List (List Char)) : Prop :=
  Readable text ∧ Recased ts (tokensOf text) ∧ (['['] ∉ tokensOf text ∨ Compact text)

theorem makeProblem_denotes {scan : Token → Option D} (hs : ∀ t, Reserved t → scan t = none)
    {text : List Char} {ts : List Token} (h : Denotes text ts) (ho : ['['] ∉ ts ∨ StarsOk ts)
    (fuel : Nat) : makeProblem scan fuel text = parse listSource scan fuel ts := by
  rw [makeProblem_tokens fuel h.1 h.2.2]
  rcases ho with ho | ho
  · rw [parse_recased fuel hs h.2.1 fine_plain ho (recased_open h.2.1 ho)]
  · rw [starsOk_iff] at ho
    rw [parse_recased fuel hs h.2.1 fine_stars ho (recased_stars h.2.1 ho)]

/-- C68 (partial): a text the tokens of which are those of a file that is written correctly is
read as the problem that the file denotes.  `val` and `ival` are the values of the numbers.
Missing: quadratic terms with too many blanks, for which the claim is false
(`C38_quadratic_layout`), bounds other than `x <= b` and `a <= x <= b`, for which the claim is
false (`C39_*`), and constraints with constants or with coefficients that are not integers, for
which the claim is false (`C40_fractions`, `C68_constant`). -/
theorem C68_read_as_written_partial (scan : Token → Option D) (hs : ∀ t, Reserved t → scan t = none)
    (val : Token → Rat) (ival : Token → Int) (f : File) (ok : FileOk scan val ival f)
    (text : List Char) (h : Denotes text f.tokens) (fuel : Nat) (hf : f.tokens.length < fuel) :
    makeProblem scan fuel text = .ok (f.problem val ival) := by
  rw [makeProblem_denotes hs h (.inr (starsOk_iff.mpr (file_stars ok))), parse_file ok hf]

/-- C68: a text that goes on after the word `end`, and a colon, is refused. -/
theorem C68_text_after_end (scan : Token → Option D) (hs : ∀ t, Reserved t → scan t = none)
    (val : Token → Rat) (ival : Token → Int) (f : File) (ok : FileOk scan val ival f)
    (t : Token) (rest : List Token) (ht : t ≠ []) (hc : t ≠ [':']) (text : List Char)
    (h : Denotes text (f.tokens ++ t :: rest))
    (ho : ['['] ∉ f.tokens ++ t :: rest ∨ StarsOk (f.tokens ++ t :: rest)) (fuel : Nat)
    (hf : (f.tokens ++ t :: rest).length < fuel) :
    makeProblem scan fuel text = .error (.status .badEndOfFile) := by
  rw [makeProblem_denotes hs h ho, parse_after ok hf]
  unfold readEnd
  have hw : readSection endWords "end".toList t = 1 := readSection_word (by decide) hc
  generalize "end".toList = w at hw
  rw [show readSection endWords (listSource.tok (w :: t :: rest) 0)
    (listSource.tok (w :: t :: rest) 1) = 1 from hw, if_neg (by decide), popFront_one]
  simp only [pm_ok_bind]
  rw [if_neg (show ¬ listSource.tok (t :: rest) 0 = [] from ht)]
  rfl

/-! ### Example -/

instance (scan : Token → Option D) (n : Token) : Decidable (NameOk scan n) :=
  decidable_of_iff (n ≠ [] ∧ (∀ c ∈ n, nameChar c = true) ∧ ¬ Reserved n ∧
    (scan n = none ∧ ¬ SameWord n "inf".toList) ∧ n.length < 320)
    ⟨fun ⟨a, b, c, d, e⟩ => ⟨a, b, c, d, e⟩, fun ⟨a, b, c, d, e⟩ => ⟨a, b, c, d, e⟩⟩

instance (scan : Token → Option D) (val : Token → Rat) (n : Token) : Decidable (NumOk scan val n) :=
  decidable_of_iff ((n.head?.any fun c => digit c || c == '.') = true ∧ scan n = some (.fin (val n)) ∧
    n.length < 320)
    ⟨fun ⟨a, b, c⟩ => ⟨by
        cases n with
        | nil => simp at a
        | cons x t => exact ⟨x, t, rfl, by simpa using a⟩, b, c⟩,
      fun ⟨⟨x, t, e, a⟩, b, c⟩ => ⟨by subst e; simpa using a, b, c⟩⟩

instance (scan : Token → Option D) (val : Token → Rat) (t : Term) : Decidable (TermOk scan val t) :=
  decidable_of_iff ((t.num ≠ none ∨ t.name ≠ none) ∧ (∀ n ∈ t.num, NumOk scan val n) ∧
    ∀ n ∈ t.name, NameOk scan n)
    ⟨fun ⟨a, b, c⟩ => ⟨a, b, c⟩, fun ⟨a, b, c⟩ => ⟨a, b, c⟩⟩

instance (scan : Token → Option D) (val : Token → Rat) (t : QTerm) : Decidable (QTermOk scan val t) :=
  decidable_of_iff ((∀ n ∈ t.num, NumOk scan val n) ∧ NameOk scan t.name ∧
    ∀ n ∈ t.second, NameOk scan n)
    ⟨fun ⟨a, b, c⟩ => ⟨a, b, c⟩, fun ⟨a, b, c⟩ => ⟨a, b, c⟩⟩

instance (ts : List Term) : Decidable (Signed ts) := by unfold Signed; infer_instance

instance (i : Int) : Decidable (IsInt i) := by unfold IsInt; infer_instance

instance (scan : Token → Option D) (ival : Token → Int) (n : Token) : Decidable (IntOk scan ival n) :=
  decidable_of_iff (NumOk scan (fun t => (ival t : Rat)) n ∧ IsInt (ival n) ∧ IsInt (-ival n))
    ⟨fun ⟨a, b⟩ => ⟨a, b⟩, fun ⟨a, b⟩ => ⟨a, b⟩⟩

instance (scan : Token → Option D) (ival : Token → Int) (c : Con) : Decidable (ConOk scan ival c) :=
  decidable_of_iff ((∀ l ∈ c.label, NameOk scan l) ∧ c.terms ≠ [] ∧ Signed c.terms ∧
    (∀ t ∈ c.terms, ∃ n ∈ t.name.toList, NameOk scan n) ∧
    (∀ t ∈ c.terms, ∀ n ∈ t.num, IntOk scan ival n) ∧
    IsInt ((c.terms.map fun t => |t.factor ival|).sum) ∧ IntOk scan ival c.value.num)
    ⟨fun ⟨a, b, c, d, e, f, g⟩ => ⟨a, b, c, by simpa using d, e, f, g⟩,
      fun ⟨a, b, c, d, e, f, g⟩ => ⟨a, b, c, by simpa using d, e, f, g⟩⟩

instance (scan : Token → Option D) (ival : Token → Int) (names : List Token) (b : BoundLine) :
    Decidable (BoundOk scan ival names b) := by
  cases b <;> unfold BoundOk <;> infer_instance

instance (scan : Token → Option D) (val : Token → Rat) (ival : Token → Int) (f : File) :
    Decidable (FileOk scan val ival f) :=
  decidable_of_iff ((∀ l ∈ f.label, NameOk scan l) ∧ (∀ t ∈ f.linear, TermOk scan val t) ∧
    (Signed f.obj ∧ ∀ g ∈ f.more, Signed g.terms) ∧
    (∀ q ∈ f.quads, ∀ t ∈ q.terms, QTermOk scan val t) ∧ (∀ c ∈ f.cons.getD [], ConOk scan ival c) ∧
    (∀ b ∈ f.bounds.getD [], BoundOk scan ival f.names b) ∧
    ((f.bounds.getD []).map BoundLine.name).Nodup ∧
    (∀ n ∈ f.binary.getD [], n ∈ f.names) ∧ (∀ n ∈ f.general.getD [], n ∈ f.names) ∧
    (f.names.length : Int) ≤ intMax ∧ ((f.cons.getD []).length : Int) ≤ intMax)
    ⟨fun ⟨a, b, c, d, e, f, g, h, i, j, k⟩ => ⟨a, b, c, d, e, f, g, h, i, j, k⟩,
      fun ⟨a, b, c, d, e, f, g, h, i, j, k⟩ => ⟨a, b, c, d, e, f, g, h, i, j, k⟩⟩

/-- The value that `scanf` gives to a number. -/
def scanVal (t : Token) : Rat :=
  match scanf t with
  | some (.fin q) => q
  | _ => 0

/-- Its integer part. -/
def scanInt (t : Token) : Int := (scanVal t).floor

/-- A term with a name. -/
def tm (sign : Option Bool) (num : Option String) (name : String) : Term :=
  ⟨sign, num.map String.toList, some name.toList⟩

/-- The file of `exText` as a tree. -/
def exFile : File :=
  { type := .maximize
    label := some "cost".toList
    obj := [tm none "2" "x1", tm (some false) "3" "x2", tm (some true) none "x3",
      tm (some false) "0.5" "x4", tm (some false) none "x1", ⟨some false, some "10".toList, none⟩]
    cons := some [
      ⟨some "c1".toList, [tm none none "x1", tm (some false) none "x2", tm (some false) none "x3"],
        .le, ⟨none, "2".toList⟩⟩,
      ⟨some "c2".toList, [tm none none "x2", tm (some true) "2" "x3", tm (some false) none "x4"],
        .ge, ⟨some true, "1".toList⟩⟩,
      ⟨none, [tm none none "x1", tm (some false) none "x4"], .eq, ⟨none, "1".toList⟩⟩,
      ⟨some "c4".toList, [tm none none "x1", tm (some false) none "x1", tm (some false) none "x3"],
        .le, ⟨none, "3".toList⟩⟩]
    bounds := some [.upper "x3".toList .le ⟨none, "4".toList⟩]
    binary := some ["x1".toList, "x2".toList, "x4".toList]
    general := some ["x3".toList] }

theorem exFile_ok : FileOk scanf scanVal scanInt exFile := by decide +kernel

theorem exFile_denotes : Denotes exText exFile.tokens := by
  refine ⟨by decide +kernel, ?_, .inl (by decide +kernel)⟩
  have e : exFile.tokens = "maximize".toList :: ((exFile.tokens.drop 1).take 16 ++
      "subject".toList :: "to".toList :: exFile.tokens.drop 19) := by decide +kernel
  have e' : tokensOf exText = "Maximize".toList :: ((exFile.tokens.drop 1).take 16 ++
      "Subject".toList :: "To".toList :: (tokensOf exText).drop 19) := by decide +kernel
  rw [e, e']
  exact .subject (x := ("subject", "to")) (by decide) (by decide +kernel) (by decide) (by decide)
    (by decide) (by decide) (by decide) (forall2_of (by decide +kernel))

theorem scanf_reserved : ∀ t, Reserved t → scanf t = none := by
  intro t h
  have h1 : t.map Char.toLower ∈ sectionWords.map fun w => w.toList.map Char.toLower := by
    obtain ⟨w, hw, h⟩ := h
    exact h ▸ List.mem_map_of_mem hw
  have h2 : ∀ u ∈ sectionWords.map fun w => w.toList.map Char.toLower,
      (u.head?.getD 'a') ∈ ['b', 'g', 'e', 's'] := by decide
  cases t with
  | nil => exact absurd (h2 _ h1) (by decide)
  | cons c t =>
    have hc : c.toLower ∈ ['b', 'g', 'e', 's'] := h2 _ h1
    have hd : isDigitC c = false := by
      by_contra hcc
      have : c ∈ ['0', '1', '2', '3', '4', '5', '6', '7', '8', '9'] := by
        have hcd : digit c = true := by rw [digit_eq]; simpa using hcc
        simpa only [digit, List.contains_eq_mem, decide_eq_true_eq] using hcd
      have h3 : ∀ c ∈ ['0', '1', '2', '3', '4', '5', '6', '7', '8', '9'],
        c.toLower ∉ ['b', 'g', 'e', 's'] := by decide
      exact h3 c this hc
    have hp : c ≠ '.' := by rintro rfl; exact absurd hc (by decide)
    have hi : ∀ w ∈ ["inf".toList, "nan".toList], areEqual ((c :: t).take 3) w = false := by
      intro w hw
      by_contra hcc
      have : SameWord ((c :: t).take 3) w := areEqual_iff.mp (by simpa using hcc)
      have h4 : w.map Char.toLower = c.toLower :: (t.take 2).map Char.toLower := this.symm
      have h5 : ∀ w ∈ ["inf".toList, "nan".toList],
        ((w.map Char.toLower).head?.getD 'a') ∉ ['b', 'g', 'e', 's'] := by decide
      exact h5 w hw (by rw [h4]; exact hc)
    unfold scanf
    have hn : scanDecimal (c :: t) = none := by
      unfold scanDecimal
      have : digitsOf (c :: t) = [] := by
        unfold digitsOf; rw [List.takeWhile_cons, hd]; rfl
      rw [this]
      simp [hp]
    rw [hn]
    simp only [hi _ (by simp : "inf".toList ∈ ["inf".toList, "nan".toList]),
      hi _ (by simp : "nan".toList ∈ ["inf".toList, "nan".toList])]
    rfl

/-- The hypotheses of `C68_read_as_written_partial` hold of the example. -/
example : makeProblem scanf 100 exText = .ok (exFile.problem scanVal scanInt) :=
  C68_read_as_written_partial scanf scanf_reserved scanVal scanInt exFile exFile_ok exText
    exFile_denotes 100 (by decide +kernel)

example : exFile.problem scanVal scanInt = exProblem := by decide +kernel

/-- C68 is false of a constant in a constraint: it becomes a variable without a name. -/
theorem C68_constant :
    makeProblem scanf 100 (lines ["max x", "st", "x + 3 <= 4", "end"]) =
      .ok { type := .maximize, elems := [⟨.fin 1, 0⟩], les := [⟨"", [⟨1, 0⟩, ⟨3, 1⟩], 4, 0⟩],
            names := ["x".toList, []], values := [⟨0, intMax, .real⟩, ⟨0, intMax, .real⟩] } := by
  decide +kernel

/-- C68 is false of a value that is not an integer: `x <= 0.5` becomes `x <= 0`. -/
theorem C68_value :
    (makeProblem scanf 100 (lines ["max x", "st", "x <= 0.5", "end"])).map PProblem.les =
      .ok [⟨"", [⟨1, 0⟩], 0, 0⟩] := by decide +kernel

/-! ## C39 -/

theorem foldl_apply_other (ival : Token → Int) (x : Token) {bs : List BoundLine}
    (h : ∀ b ∈ bs, b.name ≠ x) (v : VarValue) : bs.foldl (fun v b => b.apply ival x v) v = v := by
  induction bs generalizing v with
  | nil => rfl
  | cons b bs ih =>
    rw [List.foldl_cons, ih fun c hc => h c (List.mem_cons_of_mem _ hc)]
    have := h b List.mem_cons_self
    cases b with
    | upper y o n => exact if_neg this
    | both a o y o' n => exact if_neg this

theorem foldl_apply_mem (ival : Token → Int) {bs : List BoundLine}
    (hn : (bs.map BoundLine.name).Nodup) {b : BoundLine} (hb : b ∈ bs) (v : VarValue) :
    bs.foldl (fun v b' => b'.apply ival b.name v) v = b.apply ival b.name v := by
  induction bs generalizing v with
  | nil => cases hb
  | cons c bs ih =>
    rw [List.map_cons, List.nodup_cons] at hn
    rw [List.foldl_cons]
    rcases List.mem_cons.mp hb with rfl | hb
    · rw [foldl_apply_other]
      intro d hd e
      exact hn.1 (e ▸ List.mem_map_of_mem hd)
    · rw [ih hn.2 hb]
      have : c.name ≠ b.name := fun e => hn.1 (e ▸ List.mem_map_of_mem hb)
      congr 1
      cases c with
      | upper y o n => exact if_neg this
      | both a o y o' n => exact if_neg this

/-- What the bounds of a file say of the variable `x`, which has the value `v` in the problem. -/
structure BoundsHold (ival : Token → Int) (f : File) (x : Token) (v : VarValue) : Prop where
  /-- A binary variable is 0 or 1. -/
  binary : x ∈ f.binary.getD [] → v.min = 0 ∧ v.max = 1
  /-- `x <= b` sets the upper bound, and the lower bound is 0. -/
  upper : x ∉ f.binary.getD [] → ∀ o b, .upper x o b ∈ f.bounds.getD [] →
    v.min = 0 ∧ v.max = b.value ival
  /-- `a <= x <= b` sets both. -/
  both : x ∉ f.binary.getD [] → ∀ a o o' b, .both a o x o' b ∈ f.bounds.getD [] →
    v.min = a.value ival ∧ v.max = b.value ival
  /-- Without a line, the bounds are 0 and infinity. -/
  none : x ∉ f.binary.getD [] → (∀ b ∈ f.bounds.getD [], b.name ≠ x) → v.min = 0 ∧ v.max = intMax
  /-- The type. -/
  type : v.type = if x ∈ f.general.getD [] then .general
    else if x ∈ f.binary.getD [] then .binary else .real

theorem type_apply (ival : Token → Int) (x : Token) (b : BoundLine) (v : VarValue) :
    (b.apply ival x v).type = v.type := by
  cases b <;> (unfold BoundLine.apply; dsimp only; split <;> rfl)

theorem type_foldl (ival : Token → Int) (x : Token) (bs : List BoundLine) (v : VarValue) :
    (bs.foldl (fun v b => b.apply ival x v) v).type = v.type := by
  induction bs generalizing v with
  | nil => rfl
  | cons b bs ih => rw [List.foldl_cons, ih, type_apply]

theorem varValue_holds {ival : Token → Int} {f : File}
    (hn : ((f.bounds.getD []).map BoundLine.name).Nodup) (x : Token) :
    BoundsHold ival f x (f.varValue ival x) := by
  have hmm : ∀ (b : Prop) [Decidable b] (v : VarValue),
      (if b then { v with type := .general } else v : VarValue).min = v.min ∧
      (if b then { v with type := .general } else v : VarValue).max = v.max := by
    intro b _ v
    split <;> exact ⟨rfl, rfl⟩
  have key : x ∉ f.binary.getD [] →
      (f.varValue ival x).min =
        ((f.bounds.getD []).foldl (fun v b => BoundLine.apply ival x b v) ⟨0, intMax, .real⟩).min ∧
      (f.varValue ival x).max =
        ((f.bounds.getD []).foldl (fun v b => BoundLine.apply ival x b v) ⟨0, intMax, .real⟩).max := by
    intro h
    unfold File.varValue
    simp only [if_neg h]
    exact hmm _ _
  refine ⟨fun h => ?_, fun h o b hb => ?_, fun h a o o' b hb => ?_, fun h hb => ?_, ?_⟩
  · unfold File.varValue
    simp only [if_pos h]
    exact hmm _ _
  · rw [(key h).1, (key h).2]
    have := foldl_apply_mem ival hn hb ⟨0, intMax, .real⟩
    rw [show (BoundLine.upper x o b).name = x from rfl] at this
    rw [this]
    unfold BoundLine.apply
    dsimp only
    rw [if_pos rfl]
    exact ⟨rfl, rfl⟩
  · rw [(key h).1, (key h).2]
    have := foldl_apply_mem ival hn hb ⟨0, intMax, .real⟩
    rw [show (BoundLine.both a o x o' b).name = x from rfl] at this
    rw [this]
    unfold BoundLine.apply
    dsimp only
    rw [if_pos rfl]
    exact ⟨rfl, rfl⟩
  · rw [(key h).1, (key h).2, foldl_apply_other ival x hb]
    exact ⟨rfl, rfl⟩
  · unfold File.varValue
    dsimp only
    split
    · rfl
    · split
      · rfl
      · rw [type_foldl]

theorem zip_map {α β : Type} (l : List α) (g : α → β) : l.zip (l.map g) = l.map fun y => (y, g y) := by
  induction l with
  | nil => rfl
  | cons a l ih => simp [ih]

/-- C39 (partial): the lines `x <= b` and `a <= x <= b` of the bounds are read as they are
written.  Missing: the other lines, for which the claim is false: `x >= a`
(`C39_greater_is_upper`), `x = v` (`C39_equal_is_upper`), `a <= x` alone (`C39_lower_alone`), and
names that begin with `e` (`C39_name_with_e`). -/
theorem C39_bounds_as_written_partial (scan : Token → Option D)
    (hs : ∀ t, Reserved t → scan t = none) (val : Token → Rat) (ival : Token → Int) (f : File)
    (ok : FileOk scan val ival f) (text : List Char) (h : Denotes text f.tokens) (fuel : Nat)
    (hf : f.tokens.length < fuel) :
    ∃ p, makeProblem scan fuel text = .ok p ∧ p.names = f.names ∧
      p.values.length = p.names.length ∧
      ∀ x v, (x, v) ∈ p.names.zip p.values → BoundsHold ival f x v := by
  refine ⟨_, C68_read_as_written_partial scan hs val ival f ok text h fuel hf, rfl, ?_, ?_⟩
  · simp [File.problem]
  · intro x v hx
    have : v = f.varValue ival x := by
      have e : (f.problem val ival).names.zip (f.problem val ival).values =
          f.names.map fun y => (y, f.varValue ival y) := by
        show f.names.zip (f.names.map (f.varValue ival)) = _
        exact zip_map f.names _
      rw [e] at hx
      obtain ⟨y, _, hy⟩ := List.mem_map.mp hx
      simp only [Prod.mk.injEq] at hy
      rw [← hy.2, hy.1]
    rw [this]
    exact varValue_holds ok.bounds_nodup x

/-- C39 (partial): a line of the bounds that begins with neither a name nor a number is an
error, after any correct beginning of the file and whatever follows. -/
theorem C39_unreadable_partial (scan : Token → Option D) (hs : ∀ t, Reserved t → scan t = none)
    (val : Token → Rat) (ival : Token → Int) (f : File) (ok : FileOk scan val ival f)
    (bs : List BoundLine) (hb : f.bounds = some bs) (t : Token) (rest : List Token)
    (h1 : ¬ Reserved t) (h2 : ¬ LikeNumber t) (h3 : ∀ c ∈ t.head?, nameChar c = false)
    (h4 : t ≠ [':']) (text : List Char)
    (h : Denotes text (f.start (bs.flatMap BoundLine.tokens ++ t :: rest)))
    (ho : ['['] ∉ f.start (bs.flatMap BoundLine.tokens ++ t :: rest) ∨
      StarsOk (f.start (bs.flatMap BoundLine.tokens ++ t :: rest))) (fuel : Nat)
    (hf : (f.start (bs.flatMap BoundLine.tokens ++ t :: rest)).length < fuel) :
    makeProblem scan fuel text = .error (.status .badBound) := by
  rw [makeProblem_denotes hs h ho]
  refine parse_bad_bound (bad := t :: rest) ok hb (fun _ => h4)
    (fun k p _ => boundLoop_bad ?_ (not_likeNumber h2) (by
      cases t with
      | nil => rfl
      | cons c t => rw [startsWithName, ← nameChar_eq]; exact h3 c rfl)) hf
  rw [reserved_iff] at h1
  simpa using h1

/-- C39 (partial): a bound of a variable that is neither in the objective nor in a constraint is
an error. -/
theorem C39_unknown_variable_partial (scan : Token → Option D)
    (hs : ∀ t, Reserved t → scan t = none) (val : Token → Rat) (ival : Token → Int) (f : File)
    (ok : FileOk scan val ival f) (bs : List BoundLine) (hb : f.bounds = some bs) (b : BoundLine)
    (hbok : BoundOk scan ival [b.name] b) (hu : b.name ∉ f.names) (rest : List Token)
    (text : List Char)
    (h : Denotes text (f.start (bs.flatMap BoundLine.tokens ++ (b.tokens ++ rest))))
    (ho : ['['] ∉ f.start (bs.flatMap BoundLine.tokens ++ (b.tokens ++ rest)) ∨
      StarsOk (f.start (bs.flatMap BoundLine.tokens ++ (b.tokens ++ rest)))) (fuel : Nat)
    (hf : (f.start (bs.flatMap BoundLine.tokens ++ (b.tokens ++ rest))).length < fuel) :
    makeProblem scan fuel text = .error (.status .badBound) := by
  rw [makeProblem_denotes hs h ho]
  exact parse_bad_bound ok hb (fun _ => (bound_head hbok _).2)
    (fun k p hp => boundLoop_unknown hbok (by rw [hp]; exact hu)) hf

/-- The problem of the examples below, with the bounds of `x`. -/
def exBounds (values : List VarValue) : PM PProblem :=
  .ok { type := .maximize, elems := [⟨.fin 1, 0⟩, ⟨.fin 1, 1⟩],
        les := [⟨"", [⟨1, 0⟩, ⟨1, 1⟩], 1, 0⟩], names := ["x".toList, "y".toList], values := values }

/-- C39 is false of `x >= a`: it sets the upper bound. -/
theorem C39_greater_is_upper :
    makeProblem scanf 100 (lines ["max x + y", "st", "x + y <= 1", "bounds", "x >= 5", "end"]) =
      exBounds [⟨0, 5, .real⟩, ⟨0, intMax, .real⟩] := by decide +kernel

/-- C39 is false of `x = v`: it sets the upper bound only. -/
theorem C39_equal_is_upper :
    makeProblem scanf 100 (lines ["max x + y", "st", "x + y <= 1", "bounds", "x = 5", "end"]) =
      exBounds [⟨0, 5, .real⟩, ⟨0, intMax, .real⟩] := by decide +kernel

/-- C39 is false of `a >= x >= b` with `a > b`, which is refused. -/
theorem C39_decreasing_refused :
    makeProblem scanf 100 (lines ["max x + y", "st", "x + y <= 1", "bounds", "2 >= x >= 1", "end"]) =
      .error (.status .badBound) := by decide +kernel

/-- C39 is false of `a <= x` alone: it is refused, because the next word is dropped. -/
theorem C39_lower_alone :
    makeProblem scanf 100 (lines ["max x + y", "st", "x + y <= 1", "bounds", "1 <= x", "y <= 3",
      "end"]) = .error (.status .badBound) := by decide +kernel

/-- C39 is false of a variable with a name that begins with `e`. -/
theorem C39_name_with_e :
    (makeProblem scanf 100 (lines ["max x + e", "st", "x + e <= 1", "bounds", "x <= 3", "end"])).isOk
      = true ∧
    makeProblem scanf 100 (lines ["max x + e", "st", "x + e <= 1", "bounds", "e <= 3", "end"]) =
      .error (.status .badBound) := by decide +kernel

/-- A variable alone in the bounds has no bound. -/
theorem C39_name_alone :
    makeProblem scanf 100 (lines ["max x + y", "st", "x + y <= 1", "bounds", "x", "end"]) =
      exBounds [⟨intMin, intMax, .real⟩, ⟨0, intMax, .real⟩] := by decide +kernel

/-- C39 is false of a bound that is not an integer: it is truncated. -/
theorem C39_fraction_truncated :
    makeProblem scanf 100 (lines ["max x + y", "st", "x + y <= 1", "bounds", "x <= 1.9", "end"]) =
      exBounds [⟨0, 1, .real⟩, ⟨0, intMax, .real⟩] := by decide +kernel

/-! ## C40 -/

/-- The sum of the factors of the terms of `x`. -/
def sumOf {R : Type} [One R] [Neg R] [Mul R] [Add R] [Zero R] (val : Token → R) (ts : List Term)
    (x : Token) : R :=
  ((ts.filter fun t => t.name = some x).map fun t => t.factor val).sum

theorem sumOf_named {R : Type} [One R] [Neg R] [Mul R] [Add R] [Zero R] (val : Token → R)
    (ts : List Term) (x : Token) :
    (((named val ts).filter fun y => y.1 = x).map Prod.snd).sum = sumOf val ts x := by
  unfold sumOf
  congr 1
  induction ts with
  | nil => rfl
  | cons t ts ih =>
    rw [named_cons, List.filter_append, List.map_append, ih]
    cases h : t.name with
    | none => simp [h]
    | some n =>
      by_cases hn : n = x <;> simp [h, hn]

theorem named_fst {R : Type} [One R] [Neg R] [Mul R] (val : Token → R) (ts : List Term) :
    (named val ts).map Prod.fst = ts.filterMap Term.name := by
  induction ts with
  | nil => rfl
  | cons t ts ih =>
    rw [named_cons, List.map_append, ih, List.filterMap_cons]
    cases t.name <;> rfl

theorem collect_named {R : Type} [One R] [Neg R] [Mul R] [Add R] [Zero R] (val : Token → R)
    (ts : List Term) : collect (named val ts) =
      (firsts (ts.filterMap Term.name)).map fun x => (x, sumOf val ts x) := by
  unfold collect
  rw [named_fst]
  simp only [sumOf_named]

theorem filter_map_idx {R β : Type} (M : List Token) {l : List Token} (hl : l.Nodup)
    (hM : ∀ x ∈ l, x ∈ M) (s : Token → R) (g : R → Nat → β) (idx : β → Nat)
    (hg : ∀ r i, idx (g r i) = i) {x : Token} (hx : x ∈ M) :
    ((l.map fun y => (y, s y)).map fun y => g y.2 (M.idxOf y.1)).filter
      (fun e => idx e = M.idxOf x) = if x ∈ l then [g (s x) (M.idxOf x)] else [] := by
  induction l with
  | nil => simp
  | cons a l ih =>
    rw [List.nodup_cons] at hl
    have ih := ih hl.2 fun y hy => hM y (List.mem_cons_of_mem _ hy)
    simp only [List.map_cons, List.filter_cons, hg]
    by_cases h : a = x
    · subst h
      rw [if_neg hl.1] at ih
      simp only [decide_true, ↓reduceIte, List.mem_cons, true_or]
      rw [ih]
    · have : M.idxOf a ≠ M.idxOf x := fun hc => h ((List.idxOf_inj (hM a List.mem_cons_self)).mp hc)
      simp only [this, decide_false, Bool.false_eq_true, ↓reduceIte, List.mem_cons,
        (show x ≠ a from fun hc => h hc.symm), false_or]
      rw [ih]

theorem mem_firsts {l : List Token} {x : Token} : x ∈ firsts l ↔ x ∈ l := by
  rw [firsts_eq, mem_addNames]; simp

theorem firsts_nodup (l : List Token) : (firsts l).Nodup := by
  rw [firsts_eq]; exact nodup_addNames List.nodup_nil

theorem mem_names_obj {f : File} {x : Token} (h : x ∈ f.linear.filterMap Term.name) :
    x ∈ f.names := by
  refine mem_firsts.mpr (List.mem_append_left _ ?_)
  obtain ⟨t, ht, hx⟩ := List.mem_filterMap.mp h
  rcases List.mem_append.mp ht with ht | ht
  · exact List.mem_append_left _ (List.mem_filterMap.mpr ⟨t, ht, hx⟩)
  · obtain ⟨g, hg, ht⟩ := List.mem_flatMap.mp ht
    exact List.mem_append_right _ (List.mem_flatMap.mpr
      ⟨g, hg, List.mem_append_right _ (List.mem_filterMap.mpr ⟨t, ht, hx⟩)⟩)

theorem mem_names_con {f : File} {c : Con} (hc : c ∈ f.cons.getD []) {x : Token}
    (h : x ∈ c.terms.filterMap Term.name) : x ∈ f.names :=
  mem_firsts.mpr (List.mem_append_right _ (List.mem_flatMap.mpr ⟨c, hc, h⟩))

theorem elems_of {scan : Token → Option D} {val : Token → Rat} {ival : Token → Int} {f : File}
    (_ : FileOk scan val ival f) {R β : Type} [One R] [Neg R] [Mul R] [Add R] [Zero R]
    {v : Token → R} (ts : List Term) (h : ∀ x ∈ ts.filterMap Term.name, x ∈ f.names)
    (g : R → Nat → β) (idx : β → Nat) (hg : ∀ r i, idx (g r i) = i) {i : Nat} {x : Token}
    (hx : f.names[i]? = some x) :
    ((collect (named v ts)).map fun y => g y.2 (f.names.idxOf y.1)).filter (fun e => idx e = i) =
      if x ∈ ts.filterMap Term.name then [g (sumOf v ts x) i] else [] := by
  have hi : f.names.idxOf x = i := by
    obtain ⟨hl, rfl⟩ := List.getElem?_eq_some_iff.mp hx
    exact List.Nodup.idxOf_getElem (FileOk.names_nodup f) i hl
  rw [collect_named, ← hi, filter_map_idx f.names (firsts_nodup _)
    (fun y hy => h y (mem_firsts.mp hy)) _ g idx hg (List.mem_of_getElem? hx)]
  simp only [mem_firsts]

/-- C40 (partial): each variable of the objective has one element, with the sum of the factors of
its terms, the other variables have none, and the constant is the sum of the constants; and the
same in each constraint.  Quadratic terms are those of C96.  Missing: coefficients of constraints
that are not integers, for which the claim is false (`C40_fractions`). -/
theorem C40_sums_partial (scan : Token → Option D) (hs : ∀ t, Reserved t → scan t = none)
    (val : Token → Rat) (ival : Token → Int) (f : File) (ok : FileOk scan val ival f)
    (text : List Char) (h : Denotes text f.tokens) (fuel : Nat) (hf : f.tokens.length < fuel) :
    ∃ p, makeProblem scan fuel text = .ok p ∧
      p.value = .fin (constant val f.linear) ∧
      (∀ i x, p.names[i]? = some x → p.elems.filter (fun e => e.var = i) =
        if x ∈ f.linear.filterMap Term.name then [⟨.fin (sumOf val f.linear x), i⟩] else []) ∧
      (∀ (j : Nat) (c : Con), (f.cons.getD [])[j]? = some c → ∃ d ∈ p.eqs ++ p.ges ++ p.les, d.id = j ∧
        ∀ i x, p.names[i]? = some x → d.elems.filter (fun e => e.var = i) =
          if x ∈ c.terms.filterMap Term.name then [⟨sumOf ival c.terms x, i⟩] else []) := by
  refine ⟨_, C68_read_as_written_partial scan hs val ival f ok text h fuel hf, rfl, ?_, ?_⟩
  · intro i x hx
    exact elems_of ok f.linear (fun y hy => mem_names_obj hy) (fun r i => ⟨.fin r, i⟩) PElem.var
      (fun _ _ => rfl) hx
  · intro j c hc
    refine ⟨c.constr ival f.names j, ?_, rfl, ?_⟩
    · have h1 : (c, j) ∈ (f.cons.getD []).zipIdx := by
        rw [List.mem_zipIdx_iff_getElem?]; exact hc
      have h2 : ∀ op, c.op.op = op → c.constr ival f.names j ∈ f.constrs ival op := by
        intro op ho
        exact List.mem_map.mpr ⟨(c, j), List.mem_filter.mpr ⟨h1, by simpa using ho⟩, rfl⟩
      show _ ∈ f.constrs ival .equal ++ f.constrs ival .greater ++ f.constrs ival .less
      cases ho : c.op.op
      · exact List.mem_append_left _ (List.mem_append_left _ (h2 _ ho))
      · exact List.mem_append_left _ (List.mem_append_right _ (h2 _ ho))
      · exact List.mem_append_right _ (h2 _ ho)
    · intro i x hx
      exact elems_of ok c.terms (fun y hy => mem_names_con (List.mem_of_getElem? hc) hy)
        (fun r i => ⟨r, i⟩) FunElem.var
        (fun _ _ => rfl) hx

/-- Two lists of terms with the same variables, in the order of their first occurrences, and with
the same sums. -/
structure SameSums {R : Type} [One R] [Neg R] [Mul R] [Add R] [Zero R] (val : Token → R)
    (ts us : List Term) : Prop where
  names : firsts (ts.filterMap Term.name) = firsts (us.filterMap Term.name)
  sums : ∀ x, sumOf val ts x = sumOf val us x

/-- Two lists of quadratic parts with the same products, in the order of their first occurrences, and with
the same sums. -/
structure SameQuad (val : Token → Rat) (p q : List Quad) : Prop where
  pairs : firstPairs ((p.flatMap (Quad.products val)).map Prod.fst) =
    firstPairs ((q.flatMap (Quad.products val)).map Prod.fst)
  sums : ∀ x y, pairSum val p x y = pairSum val q x y

theorem SameQuad.collect {val : Token → Rat} {p q : List Quad} (h : SameQuad val p q) :
    collectPairs (p.flatMap (Quad.products val)) =
      collectPairs (q.flatMap (Quad.products val)) := by
  unfold collectPairs
  rw [h.pairs]
  exact List.map_congr_left fun x _ => by
    have := h.sums x.1 x.2
    unfold pairSum at this
    rw [this]

/-- Two files that differ only by terms that are grouped or not. -/
structure SameTerms (val : Token → Rat) (ival : Token → Int) (f g : File) : Prop where
  type : f.type = g.type
  order : firsts f.objNames = firsts g.objNames
  obj : SameSums val f.linear g.linear
  constant : constant val f.linear = constant val g.linear
  quad : SameQuad val f.quads g.quads
  cons : List.Forall₂ (fun c d => c.label = d.label ∧ SameSums ival c.terms d.terms ∧
    c.op.op = d.op.op ∧ c.value.value ival = d.value.value ival) (f.cons.getD []) (g.cons.getD [])
  bounds : f.bounds.getD [] = g.bounds.getD []
  binary : f.binary.getD [] = g.binary.getD []
  general : f.general.getD [] = g.general.getD []

theorem addNames_of_mem {N l : List Token} (h : ∀ x ∈ l, x ∈ N) : addNames N l = N := by
  induction l with
  | nil => rfl
  | cons a l ih =>
    show addNames (addName N a) l = N
    have : addName N a = N := if_pos (h a List.mem_cons_self)
    rw [this]
    exact ih fun x hx => h x (List.mem_cons_of_mem _ hx)

theorem addNames_firsts (N l : List Token) : addNames N (firsts l) = addNames N l := by
  induction l using List.reverseRecOn with
  | nil => rfl
  | append_singleton l a ih =>
    have hf : firsts (l ++ [a]) = addName (firsts l) a := by
      rw [firsts_eq, firsts_eq, addNames_append]; rfl
    rw [hf, addNames_append, ← ih]
    show _ = addName (addNames N (firsts l)) a
    unfold addName
    by_cases h : a ∈ firsts l
    · rw [if_pos h, if_pos (mem_addNames.mpr (.inr h))]
    · rw [if_neg h, addNames_append]; rfl

theorem addNames_congr {l m : List Token} (h : firsts l = firsts m) (N : List Token) :
    addNames N l = addNames N m := by
  rw [← addNames_firsts, h, addNames_firsts]

theorem SameSums.collect {R : Type} [One R] [Neg R] [Mul R] [Add R] [Zero R] {val : Token → R}
    {ts us : List Term} (h : SameSums val ts us) :
    Bx.Parser.collect (named val ts) = Bx.Parser.collect (named val us) := by
  rw [collect_named, collect_named, h.names]
  exact List.map_congr_left fun x _ => by rw [h.sums]

theorem SameTerms.names {val : Token → Rat} {ival : Token → Int} {f g : File}
    (h : SameTerms val ival f g) : f.names = g.names := by
  have key : ∀ {cs ds : List Con}, List.Forall₂ (fun c d => c.label = d.label ∧
      SameSums ival c.terms d.terms ∧ c.op.op = d.op.op ∧ c.value.value ival = d.value.value ival)
      cs ds → ∀ N, addNames N (cs.flatMap fun c => c.terms.filterMap Term.name) =
        addNames N (ds.flatMap fun c => c.terms.filterMap Term.name) := by
    intro cs ds h
    induction h with
    | nil => intro N; rfl
    | cons hcd _ ih =>
      intro N
      rw [List.flatMap_cons, List.flatMap_cons, addNames_append, addNames_append,
        addNames_congr hcd.2.1.names, ih]
  unfold File.names
  rw [firsts_eq, firsts_eq, addNames_append, addNames_append, key h.cons,
    addNames_congr h.order]

theorem SameTerms.constrs {val : Token → Rat} {ival : Token → Int} {f g : File}
    (h : SameTerms val ival f g) (op : Op) : f.constrs ival op = g.constrs ival op := by
  have key : ∀ {cs ds : List Con}, List.Forall₂ (fun c d => c.label = d.label ∧
      SameSums ival c.terms d.terms ∧ c.op.op = d.op.op ∧ c.value.value ival = d.value.value ival)
      cs ds → ∀ k, ((cs.zipIdx k).filter fun x => x.1.op.op = op).map
          (fun x => x.1.constr ival f.names x.2) =
        ((ds.zipIdx k).filter fun x => x.1.op.op = op).map fun x => x.1.constr ival f.names x.2 := by
    intro cs ds h
    induction h with
    | nil => intro k; rfl
    | cons hcd _ ih =>
      intro k
      obtain ⟨h1, h2, h3, h4⟩ := hcd
      simp only [List.zipIdx_cons, List.filter_cons, h3]
      have := ih (k + 1)
      split
      · rw [List.map_cons, List.map_cons, this]
        congr 1
        unfold Con.constr
        rw [h1, h2.collect, h4]
      · exact this
  unfold File.constrs
  rw [key h.cons, h.names]

/-- C40 (partial): a text where the terms of a variable are grouped is read in the same way as
the text where they are not.  Missing: as in `C40_sums_partial`. -/
theorem C40_merge_partial (scan : Token → Option D) (hs : ∀ t, Reserved t → scan t = none)
    (val : Token → Rat) (ival : Token → Int) (f g : File) (okf : FileOk scan val ival f)
    (okg : FileOk scan val ival g) (h : SameTerms val ival f g) (text text' : List Char)
    (hf : Denotes text f.tokens) (hg : Denotes text' g.tokens) (fuel : Nat)
    (lf : f.tokens.length < fuel) (lg : g.tokens.length < fuel) :
    makeProblem scan fuel text = makeProblem scan fuel text' := by
  rw [C68_read_as_written_partial scan hs val ival f okf text hf fuel lf,
    C68_read_as_written_partial scan hs val ival g okg text' hg fuel lg]
  congr 1
  unfold File.problem
  rw [h.type, h.obj.collect, h.quad.collect, h.constant, h.constrs, h.constrs, h.constrs, h.names]
  congr 1
  apply List.map_congr_left
  intro x _
  unfold File.varValue
  rw [h.bounds, h.binary, h.general]

/-- C40 is false of coefficients of a constraint that are not integers: each is truncated before
the sum. -/
theorem C40_fractions :
    (makeProblem scanf 100 (lines ["max x", "st", "0.5 x + 0.5 x <= 1", "end"])).map PProblem.les =
      .ok [⟨"", [⟨0, 0⟩], 1, 0⟩] ∧
    (makeProblem scanf 100 (lines ["max x", "st", "1 x <= 1", "end"])).map PProblem.les =
      .ok [⟨"", [⟨1, 0⟩], 1, 0⟩] := by decide +kernel

/-- `exFile` with the terms of `x1` grouped. -/
def exGrouped : File :=
  { exFile with
    obj := [tm none "3" "x1", tm (some false) "3" "x2", tm (some true) none "x3",
      tm (some false) "0.5" "x4", ⟨some false, some "10".toList, none⟩]
    cons := some ((exFile.cons.getD []).take 3 ++
      [⟨some "c4".toList, [tm none "2" "x1", tm (some false) none "x3"], .le, ⟨none, "3".toList⟩⟩]) }

theorem sumOf_absent {R : Type} [One R] [Neg R] [Mul R] [Add R] [Zero R] (val : Token → R)
    {ts : List Term} {x : Token} (h : x ∉ ts.filterMap Term.name) : sumOf val ts x = 0 := by
  unfold sumOf
  have : ts.filter (fun t => t.name = some x) = [] := by
    rw [List.filter_eq_nil_iff]
    intro t ht hn
    exact h (List.mem_filterMap.mpr ⟨t, ht, by simpa using hn⟩)
  rw [this]; rfl

theorem sameSums_of {R : Type} [One R] [Neg R] [Mul R] [Add R] [Zero R] {val : Token → R}
    {ts us : List Term} (h1 : firsts (ts.filterMap Term.name) = firsts (us.filterMap Term.name))
    (h2 : ∀ x ∈ ts.filterMap Term.name, sumOf val ts x = sumOf val us x) : SameSums val ts us := by
  refine ⟨h1, fun x => ?_⟩
  by_cases hx : x ∈ ts.filterMap Term.name
  · exact h2 x hx
  · have : x ∉ us.filterMap Term.name := by
      rw [← mem_firsts] at hx ⊢; rwa [← h1]
    rw [sumOf_absent val hx, sumOf_absent val this]

/-- The hypotheses of `C40_merge_partial` hold of the example with grouped terms. -/
example : FileOk scanf scanVal scanInt exGrouped ∧ exGrouped ≠ exFile ∧
    SameTerms scanVal scanInt exFile exGrouped := by
  refine ⟨by decide +kernel, by decide +kernel, rfl, by decide +kernel,
    sameSums_of (by decide +kernel) (by decide +kernel), by decide +kernel,
    ⟨rfl, fun _ _ => rfl⟩, ?_, rfl, rfl, rfl⟩
  have e : exFile.cons.getD [] = (exFile.cons.getD []).take 3 ++ (exFile.cons.getD []).drop 3 := rfl
  exact .cons ⟨rfl, ⟨rfl, fun _ => rfl⟩, rfl, rfl⟩ (.cons ⟨rfl, ⟨rfl, fun _ => rfl⟩, rfl, rfl⟩
    (.cons ⟨rfl, ⟨rfl, fun _ => rfl⟩, rfl, rfl⟩ (.cons ⟨rfl, sameSums_of (by decide +kernel)
      (by decide +kernel), rfl, rfl⟩ .nil)))

/-- The hypotheses of `C39_unreadable_partial` and of `C39_unknown_variable_partial` hold of texts
that go on after the bounds of the example. -/
example : ¬ Reserved ['<'] ∧ ¬ LikeNumber ['<'] ∧ (∀ c ∈ ['<'].head?, nameChar c = false) ∧
    BoundOk scanf scanInt ["x9".toList] (.upper "x9".toList .le ⟨none, "4".toList⟩) ∧
    "x9".toList ∉ exFile.names := by decide +kernel

end Bx.Parser
