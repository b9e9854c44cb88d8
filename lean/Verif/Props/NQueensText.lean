import Verif.Proofs.NQueensText
import Verif.Proofs.Main
import Verif.Props.Tuners

/-!
# C111: the text of the n-queens example is read as n-queens
-/

namespace Bx.NQueens

open Params (D)
open Bx.Parser Spec

variable {scan : Token → Option D}

/-! ## The names -/

theorem decimal_toString (n : Nat) : (toString n).toList = decimal n := by
  have h : ∀ n, Nat.toDigits 10 n = decimal n := by
    intro n
    induction n using Nat.strongRecOn with
    | ind n ih =>
      have hd : ∀ d < 10, Nat.digitChar d = digitChar d := by decide
      rw [Nat.toDigits_eq_if (by decide)]
      by_cases h : n < 10
      · rw [if_pos h, decimal_small h, hd n h]
      · rw [if_neg h, decimal_big h, ih _ (by omega), hd _ (by omega)]
  rw [← h]
  simp [Nat.repr]

theorem squareName_toList (i j : Nat) : (squareName i j).toList = cellName ((i : Int), (j : Int)) := by
  rw [cellName_nat]
  unfold squareName
  rw [String.toList_append, String.toList_append, String.toList_append, decimal_toString,
    decimal_toString]
  simp

theorem squareName_eq (i j : Nat) : String.ofList (cellName ((i : Int), (j : Int))) = squareName i j := by
  rw [← squareName_toList, String.ofList_toList]

/-! ## The file is written correctly -/

theorem addNames_mem {N l : List Token} (h : ∀ x ∈ l, x ∈ N) : addNames N l = N := by
  induction l with
  | nil => rfl
  | cons a l ih =>
    show addNames (addName N a) l = N
    have : addName N a = N := if_pos (h a List.mem_cons_self)
    rw [this]
    exact ih fun x hx => h x (List.mem_cons_of_mem _ hx)

theorem firsts_nodup_eq {l : List Token} (h : l.Nodup) : firsts l = l := by
  have := collect_nodup (R := Int) (l := l.map fun x => (x, (0 : Int)))
    (by rw [List.map_map]; simpa [Function.comp_def] using h)
  have h2 := congrArg (List.map Prod.fst) this
  unfold collect at h2
  simpa [List.map_map, Function.comp_def] using h2

theorem names_cellTerm (l : List (Int × Int)) :
    (l.map cellTerm).filterMap Term.name = l.map cellName := by
  induction l with
  | nil => rfl
  | cons p l ih =>
    have h : (cellTerm p).name = some (cellName p) := rfl
    rw [List.map_cons, List.map_cons, List.filterMap_cons_some h, ih]

theorem file_names {n : Nat} (h3 : 3 ≤ n) : (file n).names = (cells n).map cellName := by
  have hb : ∀ p ∈ cells n, OnBoard n p.1 p.2 := fun p hp => mem_cells.mp hp
  have h1 : (file n).obj.filterMap Term.name = (cells n).map cellName := names_cellTerm _
  have hq : (file n).objNames = (file n).obj.filterMap Term.name := List.append_nil _
  unfold File.names
  rw [hq, h1, firsts_eq, addNames_append, ← firsts_eq,
    firsts_nodup_eq (names_nodup (cells_nodup n) hb)]
  apply addNames_mem
  intro x hx
  obtain ⟨c, hc, hx⟩ := List.mem_flatMap.mp hx
  have hc' : c ∈ (allLines n).map lineCon := hc
  obtain ⟨l, hl, rfl⟩ := List.mem_map.mp hc'
  have : x ∈ (l.cells.map cellTerm).filterMap Term.name := hx
  rw [names_cellTerm] at this
  obtain ⟨p, hp, rfl⟩ := List.mem_map.mp this
  exact List.mem_map.mpr ⟨p, mem_cells.mpr ((lines_ok h3 l hl).board p hp), rfl⟩

theorem cell_ok (hx : ∀ t, scan ('x' :: t) = none) {n : Nat} (hn : (n : Int) ≤ intMax)
    {p : Int × Int} (hp : OnBoard n p.1 p.2) : NameOk scan (cellName p) := by
  obtain ⟨p1, p2⟩ := p
  obtain ⟨a, b, h1, h2, e1, e2⟩ := hp.nat
  simp only at e1 e2
  subst e1 e2
  exact cellName_ok hx (by omega) (by omega)

theorem allLines_length {n : Nat} (h3 : 3 ≤ n) : (allLines n).length = 6 * n - 6 := by
  unfold allLines rowLines columnLines diagLeft diagTop antiLeft antiBottom upTo
  simp only [List.length_append, List.length_map, List.length_range]
  omega

theorem line_length {n : Nat} {l : Line} (hl : LineOk n l) : l.cells.length ≤ n * n := by
  rw [← cells_length]
  exact (hl.nodup.subperm fun p hp => mem_cells.mpr (hl.board p hp)).length_le

theorem factor_cell {R : Type} [Ring R] (val : Token → R) (p : Int × Int) :
    (cellTerm p).factor val = 1 := by
  simp [cellTerm, Term.factor, signOf]

theorem sum_ones (l : List (Int × Int)) (ival : Token → Int) :
    (((l.map cellTerm).map fun t => |t.factor ival|).sum) = l.length := by
  induction l with
  | nil => rfl
  | cons p l ih =>
    rw [List.map_cons, List.map_cons, List.sum_cons, ih, factor_cell]
    simp; ring

theorem file_linear (n : Nat) : (file n).linear = (cells n).map cellTerm := List.append_nil _

theorem file_ok (hd : ReadsInts scan) (hx : ∀ t, scan ('x' :: t) = none) {n : Nat} (h3 : 3 ≤ n)
    (hn : ((n * n : Nat) : Int) ≤ intMax) :
    FileOk scan (scanned scan) (scannedInt scan) (file n) := by
  have hn1 : (n : Int) ≤ intMax := by
    have : n ≤ n * n := Nat.le_mul_of_pos_left n (by omega)
    omega
  have hlen := allLines_length h3
  refine ⟨?_, ?_, ?_, ?_, ?_, ?_, ?_, ?_, ?_, ?_, ?_⟩
  · intro l hl; cases hl
  · intro t ht
    rw [file_linear] at ht
    obtain ⟨p, hp, rfl⟩ := List.mem_map.mp ht
    refine ⟨.inr (by simp [cellTerm]), (fun n hn => by cases hn), ?_⟩
    intro m hm
    simp only [cellTerm, Option.mem_def, Option.some.injEq] at hm
    subst hm
    exact cell_ok hx hn1 (mem_cells.mp hp)
  · refine ⟨fun t ht => ?_, fun g hg => by cases hg⟩
    obtain ⟨p, _, rfl⟩ := List.mem_map.mp (show t ∈ (cells n).map cellTerm from List.mem_of_mem_drop ht)
    simp [cellTerm]
  · intro q hq; cases hq
  · intro c hc
    obtain ⟨l, hl, rfl⟩ := List.mem_map.mp (show c ∈ (allLines n).map lineCon from hc)
    have hl := lines_ok h3 l hl
    refine ⟨(fun l hl => by cases hl), ?_, ?_, ?_, ?_, ?_, decimal_ok (n := 1) hd (by decide)⟩
    · show l.cells.map cellTerm ≠ []
      simpa using hl.some
    · intro t ht
      obtain ⟨p, _, rfl⟩ :=
        List.mem_map.mp (show t ∈ l.cells.map cellTerm from List.mem_of_mem_drop ht)
      simp [cellTerm]
    · intro t ht
      obtain ⟨p, hp, rfl⟩ := List.mem_map.mp (show t ∈ l.cells.map cellTerm from ht)
      exact ⟨cellName p, rfl, cell_ok hx hn1 (hl.board p hp)⟩
    · intro t ht
      obtain ⟨p, _, rfl⟩ := List.mem_map.mp (show t ∈ l.cells.map cellTerm from ht)
      intro m hm; cases hm
    · show IsInt (((l.cells.map cellTerm).map fun t => |t.factor (scannedInt scan)|).sum)
      rw [sum_ones]
      have := line_length hl
      unfold IsInt intMin
      unfold intMax at *
      omega
  · intro b hb; cases hb
  · exact List.nodup_nil
  · intro m hm
    rw [file_names h3]; exact hm
  · intro m hm; cases hm
  · rw [file_names h3, List.length_map, cells_length]; exact hn
  · show (((allLines n).map lineCon).length : Int) ≤ intMax
    rw [List.length_map, hlen]
    have : n ≤ 100000 := by
      by_contra hc
      have : 100000 * 100000 ≤ n * n := Nat.mul_le_mul (by omega) (by omega)
      unfold intMax at hn
      omega
    unfold intMax
    omega

/-! ## The problem -/

/-- The number of the variable of a square. -/
def idx (n : Nat) (p : Int × Int) : Nat := p.1.toNat * n + p.2.toNat

theorem idxOf_cell {n : Nat} {p : Int × Int} (hp : OnBoard n p.1 p.2) :
    ((cells n).map cellName).idxOf (cellName p) = idx n p := by
  obtain ⟨p1, p2⟩ := p
  obtain ⟨a, b, h1, h2, e1, e2⟩ := hp.nat
  simp only at e1 e2
  subst e1 e2
  have hg : ((cells n).map cellName)[a * n + b]? = some (cellName ((a : Int), (b : Int))) := by
    rw [List.getElem?_map, cells_getElem h1 h2]; rfl
  obtain ⟨hlt, he⟩ := List.getElem?_eq_some_iff.mp hg
  have hn : ((cells n).map cellName).Nodup :=
    names_nodup (cells_nodup n) fun p hp => mem_cells.mp hp
  have := hn.idxOf_getElem (a * n + b) hlt
  rw [he] at this
  rw [this]
  rfl

theorem named_cells {R : Type} [Ring R] (val : Token → R) (l : List (Int × Int)) :
    named val (l.map cellTerm) = l.map fun p => (cellName p, (1 : R)) := by
  unfold named
  induction l with
  | nil => rfl
  | cons p l ih =>
    have h : ((cellTerm p).name.map fun n => (n, (cellTerm p).factor val)) =
        some (cellName p, (1 : R)) := by
      rw [factor_cell]; rfl
    rw [List.map_cons, List.map_cons, List.filterMap_cons_some
      (f := fun t : Term => t.name.map fun n => (n, t.factor val)) h, ih]

theorem collect_cells {R : Type} [Ring R] (val : Token → R) {n : Nat} {l : List (Int × Int)}
    (hn : l.Nodup) (hb : ∀ p ∈ l, OnBoard n p.1 p.2) :
    collect (named val (l.map cellTerm)) = l.map fun p => (cellName p, (1 : R)) := by
  rw [named_cells]
  exact collect_nodup (by
    rw [List.map_map]
    exact names_nodup hn hb)

/-- The problem that is read. -/
def problemOf (scan : Token → Option D) (n : Nat) : PProblem :=
  (file n).problem (scanned scan) (scannedInt scan)

theorem problem_elems {n : Nat} (h3 : 3 ≤ n) :
    (problemOf scan n).elems = (cells n).map fun p => ⟨.fin 1, idx n p⟩ := by
  have hb : ∀ p ∈ cells n, OnBoard n p.1 p.2 := fun p hp => mem_cells.mp hp
  show (collect (named (scanned scan) (file n).linear)).map _ = _
  rw [file_linear, collect_cells _ (cells_nodup n) hb, List.map_map, file_names h3]
  apply List.map_congr_left
  intro p hp
  show (⟨.fin 1, _⟩ : PElem) = _
  rw [idxOf_cell (hb p hp)]

theorem problem_value {n : Nat} : (problemOf scan n).value = .fin 0 := by
  show D.fin (constant _ (file n).linear) = _
  rw [file_linear]
  unfold constant
  have : ((cells n).map cellTerm).filter (fun t => t.name = none) = [] := by
    rw [List.filter_eq_nil_iff]
    intro t ht
    obtain ⟨p, _, rfl⟩ := List.mem_map.mp ht
    simp [cellTerm]
  rw [this]
  rfl

theorem mapM_some {α β : Type} {f : α → Option β} {g : α → β} (h : ∀ a, f a = some (g a)) :
    ∀ l : List α, l.mapM f = some (l.map g)
  | [] => rfl
  | a :: l => by
    rw [List.mapM_cons, h a, mapM_some h l]
    rfl

theorem problem_raw {n : Nat} (h3 : 3 ≤ n) : (problemOf scan n).toRaw = some
    { type := .minimize
      objective := ⟨(cells n).map fun p => ⟨1, idx n p⟩, [], 0⟩
      eqs := (problemOf scan n).eqs
      ges := (problemOf scan n).ges
      les := (problemOf scan n).les
      names := (cells n).map fun p => String.ofList (cellName p)
      values := (problemOf scan n).values } := by
  unfold PProblem.toRaw
  have hn : (problemOf scan n).names = (cells n).map cellName := file_names h3
  have hq : (problemOf scan n).qelems = [] := rfl
  rw [problem_elems h3, problem_value, hq, hn]
  have : ((cells n).map fun p => (⟨.fin 1, idx n p⟩ : PElem)).mapM
      (fun e => (finite e.factor).map fun q => (⟨q, e.var⟩ : ObjElem)) =
      some ((cells n).map fun p => ⟨1, idx n p⟩) := by
    rw [List.mapM_map]
    exact mapM_some (fun p => rfl) _
  rw [this, List.map_map]
  rfl

theorem constr_elems {n : Nat} (h3 : 3 ≤ n) {l : Line} (hl : LineOk n l) (i : Nat) :
    ((lineCon l).constr (scannedInt scan) (file n).names i).elems =
      l.cells.map fun p => ⟨1, idx n p⟩ := by
  show (collect (named (scannedInt scan) (l.cells.map cellTerm))).map _ = _
  rw [collect_cells _ hl.nodup hl.board, List.map_map, file_names h3]
  apply List.map_congr_left
  intro p hp
  show (⟨1, _⟩ : FunElem) = _
  rw [idxOf_cell (hl.board p hp)]

theorem constr_value (hd : ReadsInts scan) (l : Line) (names : List Token) (i : Nat) :
    ((lineCon l).constr (scannedInt scan) names i).value = 1 := by
  show signOf none * scannedInt scan (decimal 1) = 1
  rw [scannedInt_decimal hd (by decide)]
  rfl

theorem lhs_cells (n : Nat) (x : Assign) (l : List (Int × Int)) :
    lhs x (l.map fun p => (⟨1, idx n p⟩ : FunElem)) = (queensOn (placement n x) l : Int) := by
  unfold lhs queensOn
  induction l with
  | nil => rfl
  | cons p l ih =>
    rw [List.map_cons, List.map_cons, List.sum_cons, List.map_cons, List.sum_cons, ih]
    unfold placement idx
    push_cast
    rfl

theorem mem_constrs {n : Nat} {op : Op} {c : Constr}
    (h : c ∈ (file n).constrs (scannedInt scan) op) : ∃ l ∈ allLines n, ∃ i,
      (lineCon l).op.op = op ∧ c = (lineCon l).constr (scannedInt scan) (file n).names i := by
  obtain ⟨⟨d, i⟩, hd, rfl⟩ := List.mem_map.mp h
  obtain ⟨h1, h2⟩ := List.mem_filter.mp hd
  have h3 : d ∈ (allLines n).map lineCon := by
    have := List.mem_zipIdx' h1
    rw [this.2]
    exact List.getElem_mem _
  obtain ⟨l, hl, rfl⟩ := List.mem_map.mp h3
  exact ⟨l, hl, i, by simpa using h2, rfl⟩

theorem constrs_mem {n : Nat} {l : Line} (hl : l ∈ allLines n) : ∃ i,
    (lineCon l).constr (scannedInt scan) (file n).names i ∈
      (file n).constrs (scannedInt scan) (lineCon l).op.op := by
  have h1 : lineCon l ∈ (file n).cons.getD [] := List.mem_map_of_mem hl
  obtain ⟨i, hi, he⟩ := List.getElem_of_mem h1
  refine ⟨i, List.mem_map.mpr ⟨(lineCon l, i), List.mem_filter.mpr ⟨?_, by simp⟩, rfl⟩⟩
  rw [List.mem_zipIdx_iff_getElem?]
  rw [List.getElem?_eq_some_iff]
  exact ⟨hi, he⟩

theorem satisfies_iff (hd : ReadsInts scan) {n : Nat} (h3 : 3 ≤ n) (x : Assign) :
    Satisfies (problemOf scan n).eqs (problemOf scan n).ges (problemOf scan n).les x ↔
      ∀ l ∈ allLines n, l.Holds (placement n x) := by
  have key : ∀ l ∈ allLines n, ∀ i,
      lhs x ((lineCon l).constr (scannedInt scan) (file n).names i).elems =
        (queensOn (placement n x) l.cells : Int) := by
    intro l hl i
    rw [constr_elems h3 (lines_ok h3 l hl), lhs_cells]
  constructor
  · rintro ⟨h1, -, h2⟩ l hl
    obtain ⟨i, hi⟩ := constrs_mem (scan := scan) hl
    unfold Line.Holds
    cases hr : l.rel with
    | eqOne =>
      have ho : (lineCon l).op.op = .equal := by unfold lineCon; rw [hr]; rfl
      rw [ho] at hi
      have := h1 _ hi
      rw [key l hl, constr_value hd] at this
      exact_mod_cast this
    | leOne =>
      have ho : (lineCon l).op.op = .less := by unfold lineCon; rw [hr]; rfl
      rw [ho] at hi
      have := h2 _ hi
      rw [key l hl, constr_value hd] at this
      exact_mod_cast this
  · intro h
    refine ⟨?_, ?_, ?_⟩ <;> intro c hc <;>
      obtain ⟨l, hl, i, ho, rfl⟩ := mem_constrs hc <;>
      rw [key l hl, constr_value hd] <;>
      have hh := h l hl <;>
      unfold Line.Holds at hh <;>
      cases hr : l.rel <;> rw [hr] at hh <;> unfold lineCon at ho <;> rw [hr] at ho <;>
      first
        | exact_mod_cast hh
        | cases ho

theorem problem_values {n : Nat} (h3 : 3 ≤ n) :
    (problemOf scan n).values = List.replicate (n * n) ⟨0, 1, .binary⟩ := by
  show (file n).names.map ((file n).varValue (scannedInt scan)) = _
  rw [List.eq_replicate_iff]
  rw [file_names h3]
  refine ⟨by rw [List.length_map, List.length_map, cells_length], ?_⟩
  intro v hv
  obtain ⟨m, hm, rfl⟩ := List.mem_map.mp hv
  have hb : m ∈ (file n).binary.getD [] := hm
  have hg : m ∉ (file n).general.getD [] := List.not_mem_nil
  unfold File.varValue
  simp only [if_pos hb, if_neg hg]

theorem objective_cells {n : Nat} (x : Assign) :
    objective ⟨(cells n).map fun p => ⟨1, idx n p⟩, [], 0⟩ x = (queens n (placement n x) : Rat) := by
  have h1 : ∀ l : List (Int × Int), ((l.map fun p => (⟨1, idx n p⟩ : ObjElem)).map fun e =>
      if x e.var then e.factor else 0).sum = ((queensOn (placement n x) l : Nat) : Rat) := by
    intro l
    unfold queensOn
    induction l with
    | nil => rfl
    | cons p l ih =>
      rw [List.map_cons, List.map_cons, List.sum_cons, List.map_cons, List.sum_cons, ih]
      unfold placement idx
      push_cast
      rfl
  have h2 : queensOn (placement n x) (cells n) = queens n (placement n x) := by
    have hq : ∀ is : List Int, queensOn (placement n x)
        (is.flatMap fun i => (upTo 0 n).map fun j => (i, j)) =
        (is.map fun i => queensOn (placement n x) ((upTo 0 n).map fun j => (i, j))).sum := by
      intro is
      induction is with
      | nil => rfl
      | cons i is ih =>
        rw [List.flatMap_cons, List.map_cons, List.sum_cons, ← ih]
        unfold queensOn
        rw [List.map_append, List.sum_append]
    unfold cells
    rw [hq, sum_upTo n fun i => queensOn (placement n x) ((upTo 0 n).map fun j => (i, j))]
    unfold queens
    exact Finset.sum_congr rfl fun i _ => rowQueens_eq n _ i
  unfold objective
  rw [h1, h2]
  simp

/-! ## C111 -/

/-- C111.  The text of the n-queens example is read, and the problem that is read is n-queens: it
minimises, it has one binary variable `x_i_j` for each square, its solutions are the placements of
`n` queens that do not attack each other, and the value of its objective is the number of queens.
`scan` is the value that `sscanf` gives to a text: it reads the integers, it reads nothing in a
section word or in a text that begins with `x`. -/
theorem C111_text_is_n_queens (scan : Token → Option D) (hs : ∀ t, Reserved t → scan t = none)
    (hd : ReadsInts scan) (hx : ∀ t, scan ('x' :: t) = none) (n : Nat) (h3 : 3 ≤ n)
    (hn : ((n * n : Nat) : Int) ≤ intMax) :
    ∃ t p pb, text n = .ok t ∧
      (∀ fuel, (tokensOf t).length < fuel → makeProblem scan fuel t = .ok p) ∧
      p.toRaw = some pb ∧ WellFormedRaw pb ∧ pb.type = .minimize ∧ pb.objective.qelems = [] ∧
      pb.names.length = n * n ∧
      (∀ i j, i < n → j < n → pb.names[i * n + j]? = some (squareName i j)) ∧
      (∀ v ∈ pb.values, v = ⟨0, 1, .binary⟩) ∧
      (∀ x : Assign, IsSolution pb x ↔ Solution n (placement n x)) ∧
      ∀ x : Assign, objective pb.objective x = queens n (placement n x) := by
  have hn1 : (n : Int) ≤ intMax := by
    have : n ≤ n * n := Nat.le_mul_of_pos_left n (by omega)
    omega
  obtain ⟨t, ht, sp⟩ := text_spell hx h3 hn1
  have hok := file_ok hd hx h3 hn
  have hread : ∀ fuel, (tokensOf t).length < fuel →
      makeProblem scan fuel t = .ok (problemOf scan n) := by
    intro fuel hf
    rw [sp.tokensOf] at hf
    refine C68_read_as_written_partial scan hs _ _ _ hok t ⟨sp.readable, ?_⟩ fuel hf
    rw [sp.tokensOf]
    exact ⟨recased_refl _ _, .inl (file_open hok rfl)⟩
  refine ⟨t, problemOf scan n, _, ht, hread, problem_raw h3,
    C37_well_formed_raw scan _ t _ _ (hread _ (Nat.lt_succ_self _)) (problem_raw h3), rfl, rfl, ?_,
    ?_, ?_, ?_, ?_⟩
  · show ((cells n).map _).length = _
    rw [List.length_map, cells_length]
  · intro i j hi hj
    show ((cells n).map _)[i * n + j]? = _
    rw [List.getElem?_map, cells_getElem hi hj]
    simp only [Option.map_some, squareName_eq]
  · intro v hv
    have hv' : v ∈ (problemOf scan n).values := hv
    rw [problem_values h3] at hv'
    exact List.eq_of_mem_replicate hv'
  · intro x
    obtain ⟨ls, h1, h2⟩ := C59_n_queens n h3
    have h4 : ls = allLines n := by
      unfold lines at h1
      rw [if_neg (by omega)] at h1
      cases h1; rfl
    subst h4
    rw [← h2 (placement n x), ← satisfies_iff hd h3 x]
    constructor
    · exact fun h => h.1
    · refine fun h => ⟨h, ?_⟩
      intro i v hv he
      have hv' : (problemOf scan n).values[i]? = some v := hv
      rw [problem_values h3] at hv'
      have := List.eq_of_mem_replicate (List.mem_of_getElem? hv')
      subst this
      cases he
  · exact fun x => objective_cells x

/-- The result does not depend on what is outside of the board. -/
theorem solution_congr {n : Nat} {x y : Board} (h : ∀ i j, OnBoard n i j → x i j = y i j)
    (hx : Solution n x) : Solution n y := by
  refine ⟨?_, ?_⟩
  · refine Eq.trans ?_ hx.1
    unfold queens
    refine Finset.sum_congr rfl fun i hi => Finset.sum_congr rfl fun j hj => ?_
    rw [Finset.mem_range] at hi hj
    rw [h i j ⟨by omega, by omega, by omega, by omega⟩]
  · intro i j k l h1 h2 h3 h4
    exact hx.2 i j k l h1 h2 (by rw [h i j h1]; exact h3) (by rw [h k l h2]; exact h4)

theorem placement_of {n : Nat} (b : Board) {i j : Int} (h : OnBoard n i j) :
    placement n (fun k => b ((k / n : Nat) : Int) ((k % n : Nat) : Int)) i j = b i j := by
  obtain ⟨h1, h2, h3, h4⟩ := h
  have hn : 0 < n := by omega
  unfold placement
  have e1 : (i.toNat * n + j.toNat) / n = i.toNat := by
    rw [Nat.add_comm, Nat.add_mul_div_right _ _ hn, Nat.div_eq_of_lt (by omega), Nat.zero_add]
  have e2 : (i.toNat * n + j.toNat) % n = j.toNat := by
    rw [Nat.add_comm, Nat.add_mul_mod_self_right, Nat.mod_eq_of_lt (by omega)]
  simp only [e1, e2, Int.toNat_of_nonneg h1, Int.toNat_of_nonneg h3]

theorem queensOn_le (x : Board) (l : List (Int × Int)) : queensOn x l ≤ l.length := by
  unfold queensOn
  induction l with
  | nil => simp
  | cons p l ih =>
    rw [List.map_cons, List.sum_cons, List.length_cons]
    split <;> omega

/-- C111, from the text to the queens.  When `solve` or `optimize`, in any mode, reports a success on
the problem read from the text, the values that the result gives to the variables `x_i_j` are a
placement of `n` queens that do not attack each other, and its value is `n`.  With preprocessing, the
board must have such a placement (C32 tells why).  What is missing: the board of 3 with preprocessing,
and the crossovers of C47 (`Setting.Ok`). -/
theorem C111_success_places_the_queens_partial {ρ : Type} (scan : Token → Option D)
    (hs : ∀ t, Reserved t → scan t = none) (hd : ReadsInts scan) (hx : ∀ t, scan ('x' :: t) = none)
    (n : Nat) (h3 : 3 ≤ n) (hn : ((n * n : Nat) : Int) ≤ intMax)
    (t : List Char) (ht : text n = .ok t) (fuel : Nat) (hf : (tokensOf t).length < fuel)
    (p : PProblem) (hp : makeProblem scan fuel t = .ok p) (pb : RawProblem)
    (hraw : p.toRaw = some pb)
    (upd : Dispatch.Engine → Itm.Slv → ρ → Nat → Assign → Outcome Assign) (st : Dispatch.Setting ρ)
    (hst : st.Ok) (c : Dispatch.Ctx)
    (hF : c.preprocessing = true → ∃ b, Solution n b) (res : Result)
    (h : Dispatch.solve (Dispatch.execute upd st.untuned) (some c) pb = .ok res ∨
      Dispatch.optimize (Dispatch.execute upd st.untuned) (st.tuners upd c) (some c) pb = .ok res)
    (hok : res.status = .success) :
    ∃ s b, res.solutions = [s] ∧ Solution n b ∧ s.value = n ∧
      ∀ i j : Nat, i < n → j < n → (squareName i j, b i j) ∈ Props.pairs res s := by
  obtain ⟨t', p', pb', e1, e2, e3, wf, -, hq, hlen, hnames, hvals, hsol, hobj⟩ :=
    C111_text_is_n_queens scan hs hd hx n h3 hn
  rw [ht] at e1
  cases e1
  rw [e2 fuel hf] at hp
  cases hp
  rw [e3] at hraw
  cases hraw
  have h0 : pb.names ≠ [] := by
    intro hc
    rw [hc] at hlen
    have : 0 < n * n := Nat.mul_pos (by omega) (by omega)
    simp only [List.length_nil] at hlen
    omega
  have hi : ∀ c ∈ pb.eqs ++ pb.ges ++ pb.les, ∀ x,
      -2147483648 ≤ lhs x c.elems ∧ lhs x c.elems ≤ 2147483647 := by
    have hpp : p = problemOf scan n := by
      have hok := file_ok hd hx h3 hn
      have hn1 : (n : Int) ≤ intMax := by
        have : n ≤ n * n := Nat.le_mul_of_pos_left n (by omega)
        omega
      obtain ⟨t', ht', sp⟩ := text_spell hx h3 hn1
      rw [ht] at ht'
      cases ht'
      have := C68_read_as_written_partial scan hs _ _ _ hok t ⟨sp.readable, by
        rw [sp.tokensOf]; exact ⟨recased_refl _ _, .inl (file_open hok rfl)⟩⟩ fuel
        (by rw [sp.tokensOf] at hf; exact hf)
      rw [e2 fuel hf] at this
      cases this
      rfl
    rw [hpp, problem_raw h3] at e3
    cases e3
    intro c hc x
    have hc' : ∃ op, c ∈ (file n).constrs (scannedInt scan) op := by
      simp only [List.mem_append] at hc
      rcases hc with (hc | hc) | hc
      exacts [⟨_, hc⟩, ⟨_, hc⟩, ⟨_, hc⟩]
    obtain ⟨op, hc'⟩ := hc'
    obtain ⟨l, hl, i, _, rfl⟩ := mem_constrs hc'
    have hlo := lines_ok h3 l hl
    rw [constr_elems h3 hlo, lhs_cells]
    have h1 := queensOn_le (placement n x) l.cells
    have h2 := line_length hlo
    unfold intMax at hn
    omega
  have hF' : c.preprocessing = true → ∃ x, IsSolution pb x := by
    intro hp
    obtain ⟨b, hb⟩ := hF hp
    refine ⟨_, (hsol fun k => b ((k / n : Nat) : Int) ((k % n : Nat) : Int)).mpr
      (solution_congr (fun i j hij => (placement_of b hij).symm) hb)⟩
  have hun : Dispatch.Unfixed pb := by
    intro v hv
    rw [hvals v hv]
    decide
  have hne : pb.eqs ++ pb.ges ++ pb.les ≠ [] := by
    intro hnil
    obtain ⟨hnil', hl⟩ := List.append_eq_nil_iff.1 hnil
    obtain ⟨he, hg⟩ := List.append_eq_nil_iff.1 hnil'
    have h1 := ((hsol fun _ => false).1 ⟨by rw [he, hg, hl]; exact ⟨by simp, by simp, by simp⟩,
      fun i v hv hb => absurd hb (hun v (List.mem_of_getElem? hv))⟩).1
    have h2 : queens n (placement n fun _ => false) = 0 := by
      unfold queens placement
      simp
    omega
  have hpre : if c.preprocessing then ∃ x, IsSolution pb x
      else pb.eqs ++ pb.ges ++ pb.les ≠ [] ∧ Dispatch.Unfixed pb := by
    split
    · rename_i hp; exact hF' hp
    · exact ⟨hne, hun⟩
  obtain ⟨s, x, r1, r2, r3, r4, r5⟩ := Dispatch.C75_tuned_success_solves_the_raw_problem_partial upd
    st hst c pb wf h0 hpre hi res h hok
  obtain ⟨s', hcov⟩ := MainProgram.covers_of_valid wf.names_nodup r2
  have hss : s' = s := by
    have := hcov.last
    rw [r1] at this
    simpa using this.symm
  subst hss
  have hv := Props.C02_compute_solution_exact pb res s' x wf h0 hcov r4
  rw [r3 (Or.inr hq)] at hv
  have hval : s'.value = objective pb.objective x := by simpa using hv
  have hplace := (hsol x).mp r5
  refine ⟨s', placement n x, r1, hplace, ?_, ?_⟩
  · rw [hval, hobj, hplace.1]
  · intro i j hi hj
    have := r4 _ _ (hnames i j hi hj)
    exact this

/-! ## Examples -/

theorem scanf_x (t : Token) : scanf ('x' :: t) = none := by
  have h1 : scanDecimal ('x' :: t) = none := by
    unfold scanDecimal digitsOf
    have h0 : isDigitC 'x' = false := by decide
    simp [h0]
  unfold scanf
  rw [h1]
  have h2 : ∀ w : String, (w.toList.map Char.toLower).head? ≠ some 'x' →
      areEqual (('x' :: t).take 3) w.toList = false := by
    intro w hw
    unfold areEqual
    rw [beq_eq_false_iff_ne]
    intro hc
    have := congrArg List.head? hc
    rw [← this] at hw
    exact hw rfl
  simp only [h2 "inf" (by decide), h2 "nan" (by decide), Bool.false_eq_true, if_false]

/-- Four queens: columns 1, 3, 0 and 2. -/
def four : Assign := fun k => decide (k ∈ [1, 7, 8, 14])

theorem four_solution : Solution 4 (placement 4 four) := by
  refine ⟨by decide +kernel, ?_⟩
  have h : ∀ i ∈ List.range 4, ∀ j ∈ List.range 4, ∀ k ∈ List.range 4, ∀ l ∈ List.range 4,
      placement 4 four i j = true → placement 4 four k l = true →
      ((i : Int) = k ∨ (j : Int) = l ∨ (i : Int) - j = k - l ∨ (i : Int) + j = k + l) →
      i = k ∧ j = l := by decide +kernel
  intro i j k l h1 h2 h3 h4 h5
  obtain ⟨a, b, ha, hb, rfl, rfl⟩ := h1.nat
  obtain ⟨c, d, hc, hd, rfl, rfl⟩ := h2.nat
  have := h a (List.mem_range.mpr ha) b (List.mem_range.mpr hb) c (List.mem_range.mpr hc) d
    (List.mem_range.mpr hd) h3 h4 h5
  omega

/-- The text for four queens. -/
def fourText : List Char := match text 4 with
  | .ok t => t
  | .error _ => []

/-- The problem that is read. -/
def fourPb : RawProblem :=
  match (makeProblem scanf 1000 fourText).toOption.bind PProblem.toRaw with
  | some pb => pb
  | none => {}

example : text 4 = .ok fourText ∧ fourText.take 41 = "minimize\n + x_0_0 + x_0_1 + x_0_2 + x_0_3".toList :=
  ⟨rfl, by decide +kernel⟩

theorem fourPb_runs : ∃ res, Dispatch.solve (Dispatch.execute (fun _ _ _ _ _ => .ok four)
    Dispatch.exWorld) (some {}) fourPb = .ok res ∧ res.status = .success := by
  have : ((Dispatch.solve (Dispatch.execute (fun _ _ _ _ _ => .ok four)
    Dispatch.exWorld) (some {}) fourPb).toOption.any fun r => r.status == .success) = true := by
    decide +kernel
  cases h : Dispatch.solve (Dispatch.execute (fun _ _ _ _ _ => .ok four) Dispatch.exWorld)
    (some {}) fourPb with
  | error e => rw [h] at this; cases this
  | ok r => rw [h] at this; exact ⟨r, rfl, by simpa [Except.toOption] using this⟩

/-- The run for four queens: a placement. -/
example : ∃ res s b, Dispatch.solve (Dispatch.execute (fun _ _ _ _ _ => .ok four)
    Dispatch.exWorld) (some {}) fourPb = .ok res ∧ res.solutions = [s] ∧ Solution 4 b ∧
      s.value = 4 := by
  obtain ⟨res, h1, h2⟩ := fourPb_runs
  obtain ⟨t, p, pb, e1, e2, e3, -⟩ := C111_text_is_n_queens scanf scanf_reserved scanf_ints scanf_x 4
    (by decide) (by decide)
  have et : t = fourText := by
    unfold fourText; rw [e1]
  have hl : (tokensOf t).length < 1000 := by rw [et]; decide +kernel
  have hp := e2 1000 hl
  have hpb : pb = fourPb := by
    unfold fourPb
    rw [← et, hp]
    simp only [Except.toOption, Option.bind_some, e3]
  obtain ⟨s, b, r1, r2, r3, _⟩ := C111_success_places_the_queens_partial scanf scanf_reserved
    scanf_ints scanf_x 4 (by decide) (by decide) t e1 1000 hl p hp pb e3
    (fun _ _ _ _ _ => .ok four) Dispatch.exSetting Dispatch.exSetting_ok {}
    (fun _ => ⟨_, four_solution⟩) res (.inl (by rw [hpb]; exact h1)) h2
  exact ⟨res, s, b, h1, r1, r2, r3⟩

end Bx.NQueens
