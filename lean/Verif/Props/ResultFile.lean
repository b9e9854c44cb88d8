import Verif.Proofs.ResultFile

/-!
# Reading a file of results

C42: the text written for a successful result is read as the same assignment.  C90: any file of
lines that are comments or values is read as these values.
-/

namespace Bx.ResultFile

open Bx.Spec.ResultFile
open Bx.Parser (isSpace isDigitC)

/-- The result that is read. -/
def readBack (r : Result) (sol : Solution) : Result :=
  { status := .success
    variableName := r.affected.names ++ r.variableName
    solutions := [⟨(r.affected.values ++ sol.variables).map fun v => if v ≠ 0 then 1 else 0, 0⟩] }

theorem readResult_write {h : Header} (ho : h.OneLine) {r : Result} {sol : Solution}
    (hst : r.status = .success) (hs : r.solutions.getLast? = some sol)
    (ha : r.affected.names.length = r.affected.values.length)
    (hv : r.variableName.length = sol.variables.length)
    (hr : ∀ n ∈ r.affected.names ++ r.variableName, Readable n) :
    ∃ t, writeResult h r = .ok t ∧ readResult (some t) = .ok (readBack r sol) := by
  obtain ⟨t, h1, h2⟩ := readLines_write ho hst hs ha hv hr
  refine ⟨t, h1, ?_⟩
  simp only [readResult, h2]
  simp [State.addAll, readBack, bind, Except.bind, pure, Except.pure]

theorem zip_norm : ∀ (ns : List String) (vs : List Int),
    (ns.zip (vs.map fun v => if v ≠ 0 then (1 : Int) else 0)).map
      (fun p => (p.1, decide (p.2 ≠ 0))) = (ns.zip vs).map fun p => (p.1, decide (p.2 ≠ 0))
  | [], _ => rfl
  | _ :: _, [] => rfl
  | n :: ns, v :: vs => by
    have := zip_norm ns vs
    simp only [List.map_cons, List.zip_cons_cons, this]
    by_cases hv : v = 0 <;> simp [hv]

theorem readBack_assignment {r : Result} {sol : Solution} (hs : r.solutions.getLast? = some sol)
    (ha : r.affected.names.length = r.affected.values.length)
    (hv : r.variableName.length = sol.variables.length) :
    Complete (readBack r sol) ∧ assignment (readBack r sol) = assignment r := by
  refine ⟨⟨rfl, rfl, _, rfl, ?_⟩, ?_⟩
  · simp [readBack, ha, hv]
  · simp only [assignment, readBack, hs, List.zip_nil_left, List.nil_append,
      List.getLast?_singleton, Option.map_some, Option.getD_some]
    rw [zip_norm, List.zip_append ha]

theorem readBack_check {r : Result} {sol : Solution} (hst : r.status = .success)
    (hs : r.solutions.getLast? = some sol)
    (ha : r.affected.names.length = r.affected.values.length)
    (hv : r.variableName.length = sol.variables.length) (pb : RawProblem) :
    Lpcore.isValidSolution pb (readBack r sol) = Lpcore.isValidSolution pb r ∧
    Lpcore.computeSolution pb (readBack r sol) = Lpcore.computeSolution pb r := by
  have hm : Lpcore.makeVariableValue pb.names (readBack r sol) =
      Lpcore.makeVariableValue pb.names r := by
    simp only [Lpcore.makeVariableValue, readBack, hst, hs, List.getLast?_singleton]
    simp only [check, ha, hv, writeAll_norm, writeAll_append _ _ _ _ _ ha]
    simp [bind, Except.bind, Lpcore.writeAll, ha, hv]
  constructor
  · simp only [Lpcore.isValidSolution, hm, hst, hs]
    simp [readBack, check, bind, Except.bind, ha, hv, Nat.add_comm]
  · simp only [Lpcore.computeSolution, hm, hst, hs]
    have hne : r.solutions ≠ [] := by rintro e; rw [e] at hs; cases hs
    simp [readBack, check, bind, Except.bind, ha, hv, hne]

/-- C42.  The text that is written for a successful result with a solution is read, as a
successful result with the same assignment of the affected variables and of the solved variables,
in the same order.  The fields of the comments are arbitrary texts of one line. -/
theorem C42_round_trip (h : Header) (ho : h.OneLine) (r : Result) (hc : Complete r)
    (hr : ∀ n ∈ r.affected.names ++ r.variableName, Readable n) :
    ∃ t r', writeResult h r = .ok t ∧ readResult (some t) = .ok r' ∧ Complete r' ∧
      assignment r' = assignment r := by
  obtain ⟨hst, ha, sol, hs, hv⟩ := hc
  obtain ⟨t, h1, h2⟩ := readResult_write ho hst hs ha hv hr
  exact ⟨t, _, h1, h2, readBack_assignment hs ha hv⟩

/-- C42, what a user does with the file: whatever the problem, the check of the result that is
read and the value of its solution are those of the result that was written. -/
theorem C42_check (h : Header) (ho : h.OneLine) (r : Result) (hc : Complete r)
    (hr : ∀ n ∈ r.affected.names ++ r.variableName, Readable n) :
    ∃ t r', writeResult h r = .ok t ∧ readResult (some t) = .ok r' ∧ ∀ pb : RawProblem,
      Lpcore.isValidSolution pb r' = Lpcore.isValidSolution pb r ∧
      Lpcore.computeSolution pb r' = Lpcore.computeSolution pb r := by
  obtain ⟨hst, ha, sol, hs, hv⟩ := hc
  obtain ⟨t, h1, h2⟩ := readResult_write ho hst hs ha hv hr
  exact ⟨t, _, h1, h2, readBack_check hst hs ha hv⟩

/-! ## Files that were not written by the program -/

theorem isDigitC_iff (c : Char) : isDigitC c = true ↔ Digit c := by
  simp [isDigitC, Digit, Char.le_def]

theorem fold_zero : ∀ (ds : List Char) (n : Int), 0 ≤ n → (∀ c ∈ ds, Digit c) →
    0 ≤ ds.foldl (fun n c => 10 * n + ((c.toNat - 48 : Nat) : Int)) n ∧
    (ds.foldl (fun n c => 10 * n + ((c.toNat - 48 : Nat) : Int)) n = 0 ↔
      n = 0 ∧ ∀ c ∈ ds, c = '0')
  | [], n, hn, _ => by simpa using hn
  | c :: ds, n, hn, h => by
    obtain ⟨h1, h2⟩ := fold_zero ds (10 * n + ((c.toNat - 48 : Nat) : Int)) (by omega)
      fun x hx => h x (by simp [hx])
    refine ⟨h1, ?_⟩
    rw [List.foldl_cons, h2]
    have hc : ((c.toNat - 48 : Nat) : Int) = 0 ↔ c = '0' := by
      have hd := h c (by simp)
      have h48 : 48 ≤ c.toNat := hd.1
      constructor
      · intro e
        have : c.toNat = '0'.toNat := by
          have : '0'.toNat = 48 := rfl
          omega
        exact Char.toNat_inj.1 this
      · rintro rfl; rfl
    constructor
    · rintro ⟨e, hall⟩
      have h0 : ((c.toNat - 48 : Nat) : Int) = 0 := by omega
      refine ⟨by omega, ?_⟩
      intro x hx
      rcases List.mem_cons.1 hx with rfl | hx
      · exact hc.1 h0
      · exact hall x hx
    · rintro ⟨e, hall⟩
      have h0 := hc.2 (hall c (by simp))
      exact ⟨by omega, fun x hx => hall x (by simp [hx])⟩

theorem takeWhile_all {p : Char → Bool} : ∀ (l rest : List Char), (∀ c ∈ l, p c = true) →
    (∀ c ∈ rest.head?, p c = false) → (l ++ rest).takeWhile p = l
  | [], rest, _, h => by
    cases rest with
    | nil => rfl
    | cons c rest => rw [List.nil_append, List.takeWhile_cons_of_neg (by simp [h c (by simp)])]
  | c :: l, rest, h, h' => by
    rw [List.cons_append, List.takeWhile_cons_of_pos (h c (by simp)),
      takeWhile_all l rest (fun x hx => h x (by simp [hx])) h']

theorem dropWhile_all {p : Char → Bool} : ∀ (l rest : List Char), (∀ c ∈ l, p c = true) →
    (∀ c ∈ rest.head?, p c = false) → (l ++ rest).dropWhile p = rest
  | [], rest, _, h => by
    cases rest with
    | nil => rfl
    | cons c rest => rw [List.nil_append, List.dropWhile_cons_of_neg (by simp [h c (by simp)])]
  | c :: l, rest, h, h' => by
    rw [List.cons_append, List.dropWhile_cons_of_pos (h c (by simp)),
      dropWhile_all l rest (fun x hx => h x (by simp [hx])) h']

theorem digit_not_space {c : Char} (h : Digit c) : isSpace c = false := by
  rw [Bool.eq_false_iff]
  intro hs
  rw [isSpace_iff] at hs
  obtain ⟨h1, _⟩ := h
  simp only [Blank, List.mem_cons, List.not_mem_nil, or_false] at hs
  rcases hs with rfl | rfl | rfl | rfl | rfl | rfl <;> exact absurd h1 (by decide)

/-- The number after blanks. -/
theorem scanInt_value {blanks sign digits tail : List Char} (hb : ∀ c ∈ blanks, Blank c)
    (hs : sign ∈ [[], ['-'], ['+']]) (hd : digits ≠ []) (hdig : ∀ c ∈ digits, Digit c)
    (ht : ∀ c ∈ tail.head?, ¬ Digit c) :
    ∃ v, scanInt (blanks ++ sign ++ digits ++ tail ++ ['\x00']) = some v ∧
      decide (v ≠ 0) = digits.any (· ≠ '0') := by
  have hnul : ∀ l : List Char, (∀ c ∈ l, c ≠ '\x00') → ∀ rest : List Char,
      (l ++ rest).takeWhile (fun c => decide (c ≠ '\x00')) =
        l ++ rest.takeWhile fun c => decide (c ≠ '\x00') := by
    intro l hl rest
    induction l with
    | nil => rfl
    | cons a l ih =>
      rw [List.cons_append, List.takeWhile_cons_of_pos (by simp [hl a (by simp)]),
        ih fun c hc => hl c (by simp [hc]), List.cons_append]
  have hbn : ∀ c ∈ blanks ++ sign ++ digits, c ≠ '\x00' := by
    intro c hc e
    subst e
    simp only [List.mem_append] at hc
    rcases hc with (hc | hc) | hc
    · exact absurd (hb _ hc) (by unfold Blank; decide)
    · simp only [List.mem_cons, List.not_mem_nil, or_false] at hs
      rcases hs with rfl | rfl | rfl
      · simp at hc
      · exact absurd hc (by decide)
      · exact absurd hc (by decide)
    · exact absurd (hdig _ hc).1 (by decide)
  obtain ⟨d, ds, rfl⟩ := List.exists_cons_of_ne_nil hd
  have htail : ∀ c ∈ ((tail ++ ['\x00']).takeWhile fun c => decide (c ≠ '\x00')).head?,
      isDigitC c = false := by
    intro c hc
    rw [Bool.eq_false_iff]
    intro hdc
    rw [isDigitC_iff] at hdc
    cases tail with
    | nil => simp at hc
    | cons a tail =>
      rw [List.cons_append] at hc
      by_cases ha : a = '\x00'
      · subst ha; simp at hc
      · rw [List.takeWhile_cons_of_pos (by simp [ha])] at hc
        simp only [List.head?_cons, Option.mem_def, Option.some.injEq] at hc
        subst hc
        exact ht a (by simp) hdc
  generalize hT : (tail ++ ['\x00']).takeWhile (fun c => decide (c ≠ '\x00')) = T at htail
  have e1 : (blanks ++ sign ++ d :: ds ++ tail ++ ['\x00']).takeWhile
      (fun c => decide (c ≠ '\x00')) = blanks ++ (sign ++ (d :: ds ++ T)) := by
    rw [List.append_assoc _ tail, hnul _ hbn, hT]
    simp
  have hdns := digit_not_space (hdig d (by simp))
  have e2 : (blanks ++ (sign ++ (d :: ds ++ T))).dropWhile isSpace = sign ++ (d :: ds ++ T) := by
    refine dropWhile_all _ _ (fun c hc => (isSpace_iff c).2 (hb c hc)) ?_
    simp only [List.mem_cons, List.not_mem_nil, or_false] at hs
    rcases hs with rfl | rfl | rfl
    · intro c hc
      simp only [List.nil_append, List.cons_append, List.head?_cons, Option.mem_def,
        Option.some.injEq] at hc
      subst hc; exact hdns
    · intro c hc
      simp only [List.cons_append, List.head?_cons, Option.mem_def, Option.some.injEq] at hc
      subst hc; decide
    · intro c hc
      simp only [List.cons_append, List.head?_cons, Option.mem_def, Option.some.injEq] at hc
      subst hc; decide
  have e3 : (d :: ds ++ T).takeWhile isDigitC = d :: ds :=
    takeWhile_all _ _ (fun c hc => (isDigitC_iff c).2 (hdig c hc)) htail
  obtain ⟨_, hz⟩ := fold_zero (d :: ds) 0 (by omega) hdig
  have hval : ∀ v : Int, (v = 0 ↔ (d :: ds).foldl (fun n c => 10 * n + ((c.toNat - 48 : Nat) : Int))
      0 = 0) → decide (v ≠ 0) = (d :: ds).any (· ≠ '0') := by
    intro v hv
    rw [hz] at hv
    rw [Bool.eq_iff_iff, decide_eq_true_iff, List.any_eq_true]
    constructor
    · intro h0
      by_contra hc
      push Not at hc
      exact h0 (hv.2 ⟨rfl, fun c hc' => by simpa using hc c hc'⟩)
    · rintro ⟨c, hc, hne⟩ h0
      have := (hv.1 h0).2 c hc
      simp [this] at hne
  unfold scanInt
  simp only [e1, e2]
  have hd1 : d ≠ '-' := by rintro rfl; exact absurd (hdig '-' (by simp)).1 (by decide)
  have hd2 : d ≠ '+' := by rintro rfl; exact absurd (hdig '+' (by simp)).1 (by decide)
  simp only [List.mem_cons, List.not_mem_nil, or_false] at hs
  rcases hs with rfl | rfl | rfl
  · refine ⟨_, ?_, hval _ Iff.rfl⟩
    rw [List.nil_append, List.cons_append]
    split
    · rename_i heq; cases heq
    · rename_i heq; exact absurd (List.cons.inj heq).1 hd1
    · rename_i heq; exact absurd (List.cons.inj heq).1 hd2
    · rw [← List.cons_append, e3]
  · refine ⟨_, ?_, hval _ (neg_eq_zero (a := (d :: ds).foldl _ (0 : Int)))⟩
    simp only [List.cons_append, List.nil_append]
    rw [← List.cons_append, e3]
    rfl
  · refine ⟨_, ?_, hval _ Iff.rfl⟩
    simp only [List.cons_append, List.nil_append]
    rw [← List.cons_append, e3]

/-- What a line adds. -/
def lineOf : Item → Line
  | .comment _ _ => .comment
  | .value name _ _ digits _ => .value name.toList (digits.any (· ≠ '0'))

theorem readLine_item {i : Item} (h : i.Ok) : readLine i.text = .ok (lineOf i) := by
  cases i with
  | comment blanks text =>
    unfold readLine Item.text
    rw [dropWhile_all _ _ (fun c hc => (isSpace_iff c).2 (h.1 c hc)) (by
      intro c hc
      simp only [List.head?_cons, Option.mem_def, Option.some.injEq] at hc
      subst hc; decide)]
    rfl
  | value name blanks sign digits tail =>
    obtain ⟨⟨h0, _, h2, h3⟩, hb, hs, hd, _, hdig, ht, _, hlen⟩ := h
    obtain ⟨v, hv, hv'⟩ := scanInt_value hb hs hd hdig ht
    unfold readLine Item.text
    split
    · rename_i t e
      exact absurd e (readable_drop h3 t '=' (by decide) (by decide))
    · rw [if_pos (by simp)]
      simp only [takeWhile_until h2]
      rw [List.drop_append]
      simp only [Nat.add_sub_cancel_left, List.drop_eq_nil_of_le (Nat.le_succ _), List.nil_append,
        List.drop_succ_cons, List.drop_zero]
      have hl : ¬ (blanks ++ sign ++ digits ++ tail ++ ['\x00']).length > 512 := by
        rw [List.length_append]; simp only [List.length_singleton]; omega
      have hti : toInt (blanks ++ sign ++ digits ++ tail ++ ['\x00']) = some v := by
        unfold toInt
        rw [if_neg hl, hv]
      simp only [hti]
      have h4 : ¬ name.toList.length > Utils.nodeLength := Nat.not_lt.2 h0
      rw [if_neg h4, hv']
      rfl

theorem item_line {i : Item} (h : i.Ok) : '\n' ∉ i.text ∧ i.text ≠ [] := by
  cases i with
  | comment blanks text =>
    refine ⟨?_, by simp [Item.text]⟩
    have := h.2
    simp only [Item.text, List.mem_append, List.mem_cons, not_or] at this ⊢
    exact ⟨this.1, by decide, this.2⟩
  | value name blanks sign digits tail =>
    obtain ⟨⟨_, h1, _⟩, _, hs, _, _, hdig, _, hn, _⟩ := h
    refine ⟨?_, by simp [Item.text]⟩
    have h4 : '\n' ∉ sign := by
      simp only [List.mem_cons, List.not_mem_nil, or_false] at hs
      rcases hs with rfl | rfl | rfl <;> decide
    have h5 : '\n' ∉ digits := fun hm => absurd (hdig _ hm).1 (by decide)
    simp only [Item.text, List.mem_append, List.mem_cons, not_or] at hn ⊢
    exact ⟨h1, by decide, ⟨⟨hn.1, h4⟩, h5⟩, hn.2⟩

theorem readLines_items : ∀ (items : List Item) (rest : List Char) (s : State),
    (∀ i ∈ items, i.Ok) →
    readLines ((items.flatMap fun i => i.text ++ ['\n']) ++ rest) s =
      readLines rest ⟨s.names ++ (items.filterMap Item.meaning).map Prod.fst,
        s.values ++ (items.filterMap Item.meaning).map fun p => if p.2 then 1 else 0⟩
  | [], rest, s, _ => by simp
  | i :: items, rest, s, h => by
    obtain ⟨h1, _⟩ := item_line (h i (by simp))
    have e : ((i :: items).flatMap fun i => i.text ++ ['\n']) ++ rest =
        i.text ++ '\n' :: ((items.flatMap fun i => i.text ++ ['\n']) ++ rest) := by simp
    rw [e, readLines_line h1, readLine_item (h i (by simp)), ok_bind,
      readLines_items items rest _ fun x hx => h x (by simp [hx])]
    cases i with
    | comment b t => rfl
    | value n b sg d t =>
      simp [lineOf, State.push, Item.meaning, List.append_assoc, String.ofList_toList]

theorem readLines_last {l : List Char} (h : '\n' ∉ l) (hne : l ≠ []) (s : State) :
    readLines l s = (do
      let x ← readLine l
      .ok (s.push x)) := by
  have h1 : l.takeWhile (fun c => decide (c ≠ '\n')) = l := by
    rw [List.takeWhile_eq_self_iff]
    intro c hc
    simp only [decide_eq_true_eq]
    rintro rfl; exact h hc
  have h2 : l.dropWhile (fun c => decide (c ≠ '\n')) = [] := by
    rw [List.dropWhile_eq_nil_iff]
    intro c hc
    simp only [decide_eq_true_eq]
    rintro rfl; exact h hc
  rw [readLines]
  split
  · rw [h1, if_neg hne]
    rfl
  · rename_i c rest e
    rw [h2] at e
    cases e

/-- C90.  A file made of comments and of values is read as these values, in their order, whether or
not its last line ends with a newline. -/
theorem C90_file_is_read (items : List Item) (h : ∀ i ∈ items, i.Ok) (last : Option Item)
    (hl : ∀ i ∈ last, i.Ok) :
    readResult (some ((items.flatMap fun i => i.text ++ ['\n']) ++
        (last.map Item.text).getD [])) =
      .ok { status := .success
            variableName := ((items ++ last.toList).filterMap Item.meaning).map Prod.fst
            solutions := [⟨((items ++ last.toList).filterMap Item.meaning).map
              fun p => if p.2 then 1 else 0, 0⟩] } := by
  simp only [readResult]
  rw [readLines_items items _ _ h]
  cases last with
  | none =>
    simp only [Option.map_none, Option.getD_none, readLines_nil]
    simp [bind, Except.bind, pure, Except.pure]
  | some i =>
    obtain ⟨h1, h2⟩ := item_line (hl i rfl)
    simp only [Option.map_some, Option.getD_some, readLines_last h1 h2, readLine_item (hl i rfl)]
    cases i with
    | comment b t => simp [bind, Except.bind, pure, Except.pure, lineOf, State.push, Item.meaning]
    | value n b sg d t =>
      simp [bind, Except.bind, pure, Except.pure, lineOf, State.push, Item.meaning,
        String.ofList_toList]

/-- C90: after lines that can be read, a line without `=` which is not a comment is refused: the
file is not read as a shorter one. -/
theorem C90_line_without_value_is_refused (items : List Item) (h : ∀ i ∈ items, i.Ok)
    (l rest : List Char) (hn : '\n' ∉ l) (he : '=' ∉ l)
    (hc : ∀ u v, l = u ++ '\\' :: v → ∃ c ∈ u, ¬ Blank c) :
    readResult (some ((items.flatMap fun i => i.text ++ ['\n']) ++ l ++ '\n' :: rest)) =
      .error (.exn "bad_name") := by
  have hr : readLine l = .error (.exn "bad_name") := by
    unfold readLine
    split
    · rename_i t e
      exfalso
      have e2 := List.takeWhile_append_dropWhile (p := isSpace) (l := l)
      rw [e] at e2
      obtain ⟨c, hc', hb⟩ := hc _ _ e2.symm
      exact hb ((isSpace_iff c).1 (List.mem_takeWhile_imp hc'))
    · rw [if_neg he]
  simp only [readResult]
  rw [List.append_assoc, readLines_items items _ _ h, readLines_line hn, hr]
  rfl

/-- C90: a value that begins with anything but a digit or a sign is refused. -/
theorem C90_value_without_number_is_refused (items : List Item) (h : ∀ i ∈ items, i.Ok)
    (name : String) (hr : Readable name) (blanks : List Char) (hb : ∀ c ∈ blanks, Blank c)
    (c : Char) (tail rest : List Char) (hn : '\n' ∉ blanks ++ c :: tail)
    (hc : ¬ Digit c ∧ ¬ Blank c ∧ c ∉ ['-', '+', '\x00']) :
    readResult (some ((items.flatMap fun i => i.text ++ ['\n']) ++
      (name.toList ++ '=' :: (blanks ++ c :: tail)) ++ '\n' :: rest)) =
      .error (.exn "bad_name") := by
  obtain ⟨hc1, hc2, hc3⟩ := hc
  simp only [List.mem_cons, List.not_mem_nil, or_false, not_or] at hc3
  obtain ⟨h0, h1, h2, h3⟩ := hr
  have hti : toInt (blanks ++ c :: tail ++ ['\x00']) = none := by
    unfold toInt
    split
    · rfl
    · rename_i hlen
      unfold scanInt
      have e1 : (blanks ++ c :: tail ++ ['\x00']).takeWhile (fun c => decide (c ≠ '\x00')) =
          blanks ++ c :: (tail ++ ['\x00']).takeWhile (fun c => decide (c ≠ '\x00')) := by
        clear hn hlen
        induction blanks with
        | nil =>
          rw [List.nil_append, List.cons_append, List.takeWhile_cons_of_pos (by simp [hc3.2.2])]
          rfl
        | cons b blanks ih =>
          have : b ≠ '\x00' := by
            rintro rfl
            exact absurd (hb _ (List.mem_cons_self ..)) (by unfold Blank; decide)
          rw [List.cons_append, List.cons_append, List.takeWhile_cons_of_pos (by simp [this]),
            ih fun x hx => hb x (by simp [hx]), List.cons_append]
      have e2 := dropWhile_all (p := isSpace) blanks
        (c :: (tail ++ ['\x00']).takeWhile (fun c => decide (c ≠ '\x00')))
        (fun c hc => (isSpace_iff c).2 (hb c hc)) (by
          intro x hx
          simp only [List.head?_cons, Option.mem_def, Option.some.injEq] at hx
          subst hx
          rw [Bool.eq_false_iff]
          exact fun hs => hc2 ((isSpace_iff _).1 hs))
      simp only [e1, e2]
      split
      · rename_i heq; cases heq
      · rename_i heq; exact absurd (List.cons.inj heq).1 hc3.1
      · rename_i heq; exact absurd (List.cons.inj heq).1 hc3.2.1
      · rw [List.takeWhile_cons_of_neg (by rw [isDigitC_iff]; exact hc1)]
  have hrl : readLine (name.toList ++ '=' :: (blanks ++ c :: tail)) =
      .error (.exn "bad_name") := by
    unfold readLine
    split
    · rename_i t e
      exact absurd e (readable_drop h3 t '=' (by decide) (by decide))
    · rw [if_pos (by simp)]
      simp only [takeWhile_until h2]
      rw [List.drop_append]
      simp only [Nat.add_sub_cancel_left, List.drop_eq_nil_of_le (Nat.le_succ _), List.nil_append,
        List.drop_succ_cons, List.drop_zero, hti]
  simp only [readResult]
  rw [List.append_assoc, readLines_items items _ _ h, readLines_line (by
    simp only [List.mem_append, List.mem_cons, not_or] at hn ⊢
    exact ⟨h1, by decide, hn⟩), hrl]
  rfl

/-! ## A case -/

def exHeader : Header where
  method := "inequalities-z".toList
  constraints := "3".toList
  vars := "2".toList
  duration := "0.5".toList
  loop := "12".toList
  status := "success".toList
  values := ["4".toList, "7.5".toList]
  remaining := "0".toList

def exResult : Result where
  status := .success
  affected := ⟨["a", "b"], [0, 1]⟩
  variableName := ["x1", "y (2)"]
  solutions := [⟨[1, 1], 4⟩, ⟨[1, 0], 15/2⟩]

theorem exHeader_oneLine : exHeader.OneLine := by unfold Header.OneLine; decide

theorem readable_of {n : String} (h0 : n.toList.length ≤ 1024 * 1024) (h1 : '\n' ∉ n.toList)
    (h2 : '=' ∉ n.toList) (h3 : '\\' ∉ n.toList) : Readable n :=
  ⟨h0, h1, h2, fun u v e => absurd (by rw [e]; simp) h3⟩

theorem exResult_readable :
    ∀ n ∈ exResult.affected.names ++ exResult.variableName, Readable n := by
  intro n hn
  have : ∀ n ∈ exResult.affected.names ++ exResult.variableName,
      n.toList.length ≤ 1024 * 1024 ∧ '\n' ∉ n.toList ∧ '=' ∉ n.toList ∧ '\\' ∉ n.toList := by
    decide +kernel
  obtain ⟨h0, h1, h2, h3⟩ := this n hn
  exact readable_of h0 h1 h2 h3

theorem exResult_complete : Complete exResult := ⟨rfl, rfl, _, rfl, rfl⟩

example : assignment exResult = [("a", false), ("b", true), ("x1", true), ("y (2)", false)] := by
  decide +kernel

example : ∃ t r', writeResult exHeader exResult = .ok t ∧ readResult (some t) = .ok r' ∧
    Complete r' ∧ assignment r' = assignment exResult :=
  C42_round_trip _ exHeader_oneLine _ exResult_complete exResult_readable

/-- A name with a backslash that is not first can be read. -/
example : Readable "a\\b" := by
  refine ⟨by decide, by decide, by decide, fun u v e => ?_⟩
  have h : "a\\b".toList = ['a', '\\', 'b'] := by decide
  rw [h] at e
  match u with
  | [] => simp at e
  | c :: u =>
    simp only [List.cons_append, List.cons.injEq] at e
    exact ⟨c, by simp, by rw [← e.1]; unfold Blank; decide⟩

/-- C90: a file with a comment after blanks, a sign, a text after a number, and a last line without
newline. -/
example : readResult (some "  \\ a comment\nx= -12 # true\ny=000\n z=+1".toList) =
    .ok { status := .success, variableName := ["x", "y", " z"], solutions := [⟨[1, 0, 1], 0⟩] } := by
  have hr : ∀ n ∈ ["x", "y", " z"], Readable n := by
    intro n hn
    have : ∀ n ∈ ["x", "y", " z"], n.toList.length ≤ 1024 * 1024 ∧ '\n' ∉ n.toList ∧
      '=' ∉ n.toList ∧ '\\' ∉ n.toList := by decide +kernel
    obtain ⟨h0, h1, h2, h3⟩ := this n hn
    exact readable_of h0 h1 h2 h3
  have := C90_file_is_read
    [.comment "  ".toList " a comment".toList, .value "x" [' '] ['-'] ['1', '2'] " # true".toList,
      .value "y" [] [] ['0', '0', '0'] []]
    (by
      intro i hi
      simp only [List.mem_cons, List.not_mem_nil, or_false] at hi
      rcases hi with rfl | rfl | rfl
      · exact ⟨by unfold Blank; decide, by decide⟩
      · exact ⟨hr "x" (by simp), by unfold Blank; decide, by decide, by decide,
          by decide, by unfold Digit; decide, by unfold Digit; decide, by decide, by decide⟩
      · exact ⟨hr "y" (by simp), by simp, by decide, by decide, by decide, by unfold Digit; decide,
          by simp, by decide, by decide⟩)
    (some (.value " z" [] ['+'] ['1'] []))
    (by
      intro i hi
      simp only [Option.mem_def, Option.some.injEq] at hi
      subst hi
      exact ⟨hr " z" (by simp), by simp, by decide, by decide, by decide, by unfold Digit; decide,
          by simp, by decide, by decide⟩)
  exact this

/-! ## What a file does not keep -/

/-- Observation: whatever the result that is not a success, its file is read as a success, with no
variable. -/
theorem C42_failure_read_as_success (h : Header) (ho : h.OneLine) (r : Result)
    (hr : r.status ≠ .success) :
    ∃ t, writeResult h r = .ok t ∧
      readResult (some t) = .ok { status := .success, solutions := [⟨[], 0⟩] } := by
  have hm : '\n' ∉ h.remaining := ho _ (List.mem_append_left _ (by simp))
  have e0 : ∀ s, readLines _ s = .ok s := fun s => by
    have := readLines_head ho [] s
    rwa [readLines_nil] at this
  have e1 : ∀ s, readLines _ s = .ok s := fun s => by
    have := readLines_head ho (commentLine "\\ remaining constraints.: " h.remaining) s
    have h2 := readLines_commentLine (label := "\\ remaining constraints.: ")
      (l := " remaining constraints.: ".toList) rfl (by decide) hm [] s
    rw [List.append_nil] at h2
    rwa [h2, readLines_nil] at this
  simp only [List.append_nil] at e0
  cases hst : r.status with
  | success => exact absurd hst hr
  | _ =>
    refine ⟨_, by simp only [writeResult, hst]; rfl, ?_⟩
    simp only [readResult, e0, e1]
    rfl

/-- Observation: a file that does not exist is read as a success, with no variable. -/
theorem C42_no_file : readResult none = .ok { status := .success, solutions := [⟨[], 0⟩] } := rfl

/-- Refutation for a name with `=`: another variable is read, with another value. -/
theorem C42_equal_in_name :
    (writeValues ["x=0"] [1] >>= fun t => readResult (some t)) =
      .ok { status := .success, variableName := ["x"], solutions := [⟨[0], 0⟩] } := by
  decide +kernel

/-- Refutation for a name that begins with a backslash: the variable is lost. -/
theorem C42_backslash_in_name :
    (writeValues ["\\x", "y"] [1, 1] >>= fun t => readResult (some t)) =
      .ok { status := .success, variableName := ["y"], solutions := [⟨[1], 0⟩] } := by
  decide +kernel

/-- Observation: a line without a number is read as `0`. -/
theorem C42_no_number :
    readResult (some "x=\ny= \n".toList) =
      .ok { status := .success, variableName := ["x", "y"], solutions := [⟨[0, 0], 0⟩] } := by
  decide +kernel

/-- Observation: a blank line is refused. -/
theorem C42_blank_line : readResult (some "x=1\n\ny=0\n".toList) = .error (.exn "bad_name") := by
  decide +kernel

end Bx.ResultFile
