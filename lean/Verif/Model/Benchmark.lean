import Verif.Basic
import Verif.Model.Params
import Verif.Model.Utils

/-!
# The benchmark mode

Models `app/src/benchmark.cpp` and `lib/src/dynarray.hpp`: the table of the results of several
solvers on several models is read from a csv file, each model is optimized, and the file is written
again with one more column, next to a file of ranks.

Simplifications: a text is a list of characters; `num` stands for `sscanf("%lf")` and `txt` for the
format `{:.10g}`; `std::sort` is any sort.  The tokens of the error values and the messages are not
modelled; of `show_to_console` the faults of the computation of the widths and the numbers with their
colours are.
-/

namespace Bx.Benchmark

open Bx.Params Bx.Utils

abbrev Text := List Char

/-- `benchmark_result` without `success` (`benchmark.cpp:141-192`); a `Nat` is a line. -/
inductive Err where
  | openFile
  | readHeader (line : Nat)
  | readData (line : Nat)
  | modelName (line : Nat)
  | solverName (line column : Nat)
  deriving DecidableEq, Repr

/-- A function stops on a fault or returns an error value. -/
inductive Stop where
  | fault (f : Fault)
  | err (e : Err)
  deriving DecidableEq, Repr

abbrev BM := Except Stop

/-- An undefined behaviour. -/
def undefined {α : Type} (what : String) : BM α := .error (.fault (.ub what))

/-! ## The array -/

/-- `dynamic_array<double>` (`dynarray.hpp:33-49`). -/
structure Dyn where
  data : List D := []
  lineSize : Nat := 0
  capacity : Nat := 0
  size : Nat := 0
  deriving DecidableEq, Repr

/-- `std::vector<double>::resize`. -/
def resize (l : List D) (n : Nat) : List D := l.take n ++ List.replicate (n - l.length) (.fin 0)

/-- `init(cols)` (`dynarray.hpp:67-74`); `size_max` is 512. -/
def Dyn.init (a : Dyn) (cols : Nat) : Dyn := ⟨resize a.data (512 * cols), cols, 512, 0⟩

/-- `push_line` (`dynarray.hpp:85-94`). -/
def Dyn.pushLine (a : Dyn) : Dyn :=
  if a.size + 1 > a.capacity then
    ⟨resize a.data (a.capacity * 3 / 2 * a.lineSize), a.lineSize, a.capacity * 3 / 2, a.size + 1⟩
  else { a with size := a.size + 1 }

/-- `operator()(row, col)` read (`dynarray.hpp:102-110`), which does not check its indices. -/
def Dyn.get (a : Dyn) (row col : Nat) : BM D :=
  match a.data[row * a.lineSize + col]? with
  | some v => .ok v
  | none => undefined "m_data[row * m_line_size + col]"

/-- `operator()(row, col) = v` (`dynarray.hpp:107-110`). -/
def Dyn.set (a : Dyn) (row col : Nat) (v : D) : BM Dyn :=
  if row * a.lineSize + col < a.data.length then
    .ok { a with data := a.data.set (row * a.lineSize + col) v }
  else undefined "m_data[row * m_line_size + col]"

/-! ## Reading -/

/-- `bench` (`benchmark.cpp:194-283`): the names of the models and of the solvers, and the array. -/
structure Bench where
  models : List Text := []
  solvers : List Text := []
  array : Dyn := {}
  deriving DecidableEq, Repr

/-- `make_model` and `make_solver` (`benchmark.cpp:207-214` and `253-260`): the name is kept as it
is, with its blanks. -/
def nameOk (name : Text) : Bool := !(trim name).isEmpty

/-- The texts between the commas of a line (`buffer.find(',', begin)`, `benchmark.cpp:430-437`). -/
def fields : Text → List Text
  | [] => [[]]
  | c :: cs =>
    if c = ',' then [] :: fields cs
    else
      match fields cs with
      | [] => [[c]]
      | f :: fs => (c :: f) :: fs

/-- The loop on the names of the solvers (`benchmark.cpp:435-461`): `begin + 1 != end` refuses the
names of one character, except the last one. -/
def readSolvers (begin_ : Nat) : List Text → BM (List Text)
  | [] => .ok []
  | [f] => if nameOk f then .ok [f] else .error (.err (.solverName 1 begin_))
  | f :: g :: fs =>
    if f.length ≠ 1 ∧ nameOk f then do
      let rest ← readSolvers (begin_ + f.length + 1) (g :: fs)
      .ok (f :: rest)
    else .error (.err (.solverName 1 begin_))

/-- The solvers of the first line, whose first text is ignored (`benchmark.cpp:428-463`). -/
def readHeader (header : Text) : BM (List Text) :=
  match fields header with
  | [] | [_] => .ok []
  | f :: fs => readSolvers (f.length + 1) fs

/-- `csv_whitespace` (`benchmark.cpp:44-63`): the comma separates words, the space does not. -/
def isSep (c : Char) : Bool := [',', '\t', '\n', '\x0b', '\x0c', '\r'].contains c

/-- The words that successive `is >> buffer` read (`benchmark.cpp:473` and `487`). -/
def words : Text → List Text
  | [] => []
  | c :: cs =>
    if isSep c then words cs
    else
      match cs with
      | [] => [[c]]
      | d :: _ =>
        if isSep d then [c] :: words cs
        else
          match words cs with
          | [] => [[c]]
          | w :: ws => (c :: w) :: ws

/-- The last word ends with the text: reading it sets `eofbit`
(`benchmark.cpp:473-475`). -/
def touches (s : Text) : Bool :=
  match s.getLast? with
  | none => false
  | some c => !isSep c

/-- `to_double` (`main.hpp:59-85`): the `EOF` that `sscanf` returns for the empty text is not null,
and the result is then 0. -/
def toDouble (num : Text → Option D) (s : Text) : Option D :=
  if s.length > 512 then none
  else if s.isEmpty then some (.fin 0)
  else num s

/-- `to_double(trim(buffer)).value_or(infinity)` (`benchmark.cpp:491-493`). -/
def cellOf (num : Text → Option D) (w : Text) : D := (toDouble num (trim w)).getD .pinf

/-- The loop on the values of a line (`benchmark.cpp:486-494`). -/
def readCells (num : Text → Option D) (line : Nat) :
    Nat → Nat → Dyn → List Text → BM (Dyn × List Text)
  | 0, _, a, ws => .ok (a, ws)
  | _ + 1, _, _, [] => .error (.err (.readData line))
  | n + 1, i, a, w :: ws => do
    let a ← a.set (a.size - 1) i (cellOf num w)
    readCells num line n (i + 1) a ws

/-- The loop on the lines (`benchmark.cpp:472-498`); the first argument is at least the number of
words left. -/
def readLines (num : Text → Option D) (touch : Bool) : Nat → Nat → Bench → List Text → BM Bench
  | 0, _, b, _ => .ok b
  | _ + 1, _, b, [] => .ok b
  | n + 1, line, b, w :: ws =>
    if ws.isEmpty && touch then .ok b
    else if !nameOk w then .error (.err (.modelName line))
    else if b.solvers.length > 0 then do
      let (a, ws) ← readCells num line b.solvers.length 0 b.array.pushLine ws
      readLines num touch n (line + 1) { b with models := b.models ++ [w], array := a } ws
    else readLines num touch n (line + 1) { b with models := b.models ++ [w] } ws

/-- `load` (`benchmark.cpp:418-501`); the text is the content of the file. -/
def load (num : Text → Option D) (file : Text) : BM Bench :=
  if file.isEmpty then .error (.err (.readHeader 1))
  else do
    let header := file.takeWhile (· ≠ '\n')
    let rest := (file.dropWhile (· ≠ '\n')).drop 1
    let solvers ← readHeader header
    let a : Dyn := if solvers.isEmpty then {} else Dyn.init {} solvers.length
    readLines num (touches rest) (words rest).length 2 ⟨[], solvers, a⟩ (words rest)

/-! ## Writing -/

/-- `save_header` (`benchmark.cpp:308-315`). -/
def saveHeader (solvers : List Text) (name : Text) : Text :=
  "file".toList ++ solvers.flatMap (fun s => ',' :: s) ++ ',' :: name ++ ['\n']

/-- The loop on the values of a line of `save` (`benchmark.cpp:326-327`). -/
def saveCells (txt : D → Text) (a : Dyn) (i : Nat) : Nat → Nat → BM Text
  | 0, _ => .ok []
  | n + 1, j => do
    let v ← a.get i j
    let rest ← saveCells txt a i n (j + 1)
    .ok (txt v ++ ',' :: rest)

/-- The loop on the lines of `save` (`benchmark.cpp:323-330`). -/
def saveLines (txt : D → Text) (b : Bench) : Nat → List Text → List D → BM Text
  | _, [], _ => .ok []
  | _, _ :: _, [] => undefined "c[i]"
  | i, m :: ms, c :: cs => do
    let cells ← saveCells txt b.array i b.solvers.length 0
    let rest ← saveLines txt b (i + 1) ms cs
    .ok (m ++ ',' :: cells ++ txt c ++ '\n' :: rest)

/-- `save` (`benchmark.cpp:317-331`); `c` are the values of the new column. -/
def save (txt : D → Text) (b : Bench) (name : Text) (c : List D) : BM Text := do
  let lines ← saveLines txt b 0 b.models c
  .ok (saveHeader b.solvers name ++ lines)

/-! ## Ranks -/

/-- `is_valid` (`benchmark.cpp:88-93`). -/
def isValid : D → Bool
  | .pinf | .ninf => false
  | _ => true

/-- `result` (`benchmark.cpp:95-107`). -/
structure Res where
  value : D
  position : Nat
  rank : Nat := 0
  deriving DecidableEq, Repr

/-- The comparisons of `sort_on_value` (`benchmark.cpp:109-139`). -/
def before (t : ObjType) (a b : Res) : Bool :=
  if isValid a.value then
    if isValid b.value then
      match t with
      | .minimize => D.lt a.value b.value
      | .maximize => D.lt b.value a.value
    else true
  else false

/-- The sorts: by value for a direction, by value alone, by position. -/
structure Sorts where
  value : ObjType → List Res → List Res
  mean : List Res → List Res
  position : List Res → List Res

/-- `line` before the first sort (`benchmark.cpp:343-345`): the loop reads one cell after the row,
which the next statement overwrites. -/
def readLine (b : Bench) (i : Nat) (c : D) : BM (List Res) := do
  let vs ← (List.range (b.solvers.length + 1)).mapM fun j => b.array.get i j
  .ok ((vs.zipIdx.map fun p => ⟨p.1, p.2, 0⟩).set b.solvers.length ⟨c, b.solvers.length, 0⟩)

/-- The loop on the ranks (`benchmark.cpp:358-363` and `399-404`). -/
def rankLoop : Nat → D → List Res → List Res
  | _, _, [] => []
  | r, p, x :: xs =>
    let r := if !D.eq x.value p then r + 1 else r
    { x with rank := r } :: rankLoop r x.value xs

/-- The ranks of a sorted line (`benchmark.cpp:350-363` and `396-404`). -/
def rankAll : List Res → List Res
  | [] => []
  | x :: xs => { x with rank := 1 } :: rankLoop 1 x.value xs

/-- `stats[line[j].position].rank += line[j].rank` (`benchmark.cpp:365-366`). -/
def addRanks (total : List Nat) (line : List Res) : List Nat :=
  line.foldl (fun l r => l.modify r.position (· + r.rank)) total

/-- The loop on the lines of `save_stats` (`benchmark.cpp:342-378`): the ranks of each line and their
sums.  A NaN in the line is counted as
an undefined behaviour of `std::sort`, although it is none when the other values are equal. -/
def rankLines (srt : Sorts) (b : Bench) :
    Nat → List (ObjType × D) → List Nat → BM (List (List Nat) × List Nat)
  | _, [], total => .ok ([], total)
  | i, (t, c) :: cs, total => do
    let line ← readLine b i c
    if line.any fun r => decide (r.value = .nan) then undefined "std::sort"
    else do
      let line := rankAll (srt.value t line)
      let (rest, total) ← rankLines srt b (i + 1) cs (addRanks total line)
      .ok ((srt.position line).map Res.rank :: rest, total)

/-- What `save_stats` writes: a line of ranks per model, the line `mean` and the line `rank`. -/
structure Stats where
  ranks : List (List Nat)
  means : List D
  final : List Nat
  deriving DecidableEq, Repr

/-- `static_cast<double>(stats[j].rank) / models.size()` (`benchmark.cpp:382-383`). -/
def meanOf (total models : Nat) : D := if models = 0 then .nan else .fin ((total : Rat) / models)

/-- `save_stats` (`benchmark.cpp:333-416`). -/
def saveStats (srt : Sorts) (b : Bench) (cs : List (ObjType × D)) : BM Stats := do
  let (ranks, total) ← rankLines srt b 0 cs (List.replicate (b.solvers.length + 1) 0)
  let means := total.map fun n => meanOf n b.models.length
  let line := rankAll (srt.mean (means.zipIdx.map fun p => ⟨p.1, p.2, 0⟩))
  .ok ⟨ranks, means, (srt.position line).map Res.rank⟩

/-! ## The run -/

/-- What happens on a model (`benchmark.cpp:635-686`): its file cannot be read, `optimize` succeeds,
`optimize` fails, or an exception is caught. -/
inductive Attempt where
  | unreadable
  | solved (t : ObjType) (v : D)
  | unsolved (t : ObjType)
  | thrown (t : ObjType)
  deriving DecidableEq, Repr

/-- `element` (`benchmark.cpp:268-279`): the constructor from a value sets `success`. -/
structure Element where
  type : ObjType
  solution : D := .pinf
  success : Bool := false
  deriving DecidableEq, Repr

/-- The loop on the models (`benchmark.cpp:630-687`).  `type` is `m_objective_type`. -/
def runModels : List Attempt → BM (List Element)
  | [] => .ok []
  | .unreadable :: _ => .error (.err .openFile)
  | .solved t v :: as => do
    let es ← runModels as
    .ok (⟨t, v, true⟩ :: es)
  | .unsolved t :: as => do
    let es ← runModels as
    .ok (⟨t, .pinf, true⟩ :: es)
  | .thrown t :: as => do
    let es ← runModels as
    .ok (⟨t, .pinf, false⟩ :: es)

/-- `all_found` (`benchmark.cpp:692-698`). -/
def allFound (es : List Element) : Nat := (es.filter Element.success).length

/-- `((a - c) / a) * 100` (`benchmark.cpp:715-717` and `739-742`) on finite numbers; a division by zero is written
0. -/
def gapOf : D → D → Rat
  | .fin a, .fin c => (a - c) / a * 100
  | _, _ => 0

/-- The average distance from the solution of a solver (`benchmark.cpp:731-750`): `none` when nothing
is printed. -/
def distance (column current : List D) : Option Rat :=
  let pairs := (column.zip current).filter fun p => isValid p.1 && isValid p.2
  if pairs.length > 0 then some ((pairs.map fun p => gapOf p.1 p.2).sum / current.length) else none

/-- The "average distance from the optimum" (`benchmark.cpp:706-724`): the value on the first model is
compared with the values on the other models. -/
def optimumDistance : List D → Option Rat
  | [] => none
  | v :: vs =>
    let others := vs.filter fun c => isValid v && isValid c
    if others.length > 0 then some ((others.map fun c => gapOf v c).sum / others.length) else none

/-- The average distances of all the solvers (`benchmark.cpp:726-752`). -/
def distances (b : Bench) (current : List D) : BM (List (Option Rat)) :=
  (List.range b.solvers.length).mapM fun j => do
    let column ← (List.range current.length).mapM fun i => b.array.get i j
    .ok (distance column current)

/-- `get_digits_number` (`benchmark.cpp:82-86`): the conversion to `int` of the logarithm of 0 or of
a NaN is undefined. -/
def digits (v : D) : BM Unit :=
  if v = .fin 0 ∨ v = .nan then undefined "static_cast<int>(std::floor(std::log10(...)))" else .ok ()

/-- The widths of `show_to_console` (`benchmark.cpp:503-538`): `std::max_element` of no model. -/
def widths (b : Bench) (es : List Element) : BM Unit := do
  let _ ← (List.range b.models.length).mapM fun i =>
    (List.range b.solvers.length).mapM fun j => do
      let v ← b.array.get i j
      if isValid v then digits v else .ok ()
  let _ ← es.mapM fun e => if e.success && isValid e.solution then digits e.solution else .ok ()
  if b.models.isEmpty then undefined "std::max_element(...)->size()" else .ok ()

/-- `std::numeric_limits<double>::max()`. -/
def doubleMax : Rat := 2 ^ 1024 - 2 ^ 971

/-- The colour of a number on the console: `fmt::color::green`, `fmt::color::blue` or none. -/
inductive Colour where
  | green
  | blue
  | plain
  deriving DecidableEq, Repr

/-- `if (is_valid(v) && lower > v) lower = v` (`benchmark.cpp:560-561`). -/
def lowerOf (lower v : D) : D := if isValid v && D.lt v lower then v else lower

/-- `if (is_valid(v) && upper < v) upper = v` (`benchmark.cpp:563-564`). -/
def upperOf (upper v : D) : D := if isValid v && D.lt upper v then v else upper

/-- The colour of a number (`benchmark.cpp:581-593` and `596-607`). -/
def colour (lower upper v : D) : Colour :=
  if D.eq v lower then .green else if D.eq v upper then .blue else .plain

/-- A line of the console (`benchmark.cpp:551-609`): the numbers of the solvers, then the one of the
run, each with its colour. -/
def consoleLine (cells : List D) (e : Element) : List (D × Colour) :=
  let lower := cells.foldl lowerOf (.fin doubleMax)
  let upper := cells.foldl upperOf (.fin (-doubleMax))
  let lower := if e.success then lowerOf lower e.solution else lower
  let upper := if e.success then upperOf upper e.solution else upper
  (cells ++ [e.solution]).map fun v => (v, colour lower upper v)

/-- The lines of the console (`benchmark.cpp:548-610`). -/
def showLines (b : Bench) (es : List Element) : BM (List (List (D × Colour))) :=
  (List.range b.models.length).mapM fun i => do
    let cells ← (List.range b.solvers.length).mapM fun j => b.array.get i j
    match es[i]? with
    | some e => .ok (consoleLine cells e)
    | none => undefined "current[i]"

/-- What is printed (`benchmark.cpp:700-703`, `721-723`, `746-750`, `548-610`) and the file of ranks. -/
structure Report where
  found : Nat
  optimum : Option Rat
  distances : List (Option Rat)
  stats : Stats
  lines : List (List (D × Colour))
  deriving DecidableEq, Repr

/-- After the runs: the content of the csv file at the end, and how the function ends.  The file is
written before the ranks are computed (`benchmark.cpp:706-773`). -/
def finish (txt : D → Text) (srt : Sorts) (file name : Text) (b : Bench) (es : List Element) :
    Text × BM Report :=
  match distances b (es.map Element.solution) with
  | .error s => (file, .error s)
  | .ok ds =>
    match save txt b name (es.map Element.solution) with
    | .error s => (file, .error s)
    | .ok csv =>
      (csv, do
        let stats ← saveStats srt b (es.map fun e => (e.type, e.solution))
        widths b es
        let lines ← showLines b es
        .ok ⟨allFound es, optimumDistance (es.map Element.solution), ds, stats, lines⟩)

/-- `try_benchmark` (`benchmark.cpp:613-774`) on a csv file that can be opened and written: the
content of the file at the end, and how the function ends.  `attempt` tells what happens on a model. -/
def tryBenchmark (num : Text → Option D) (txt : D → Text) (srt : Sorts) (attempt : Text → Attempt)
    (file name : Text) : Text × BM Report :=
  match load num file with
  | .error s => (file, .error s)
  | .ok b =>
    match runModels (b.models.map attempt) with
    | .error s => (file, .error s)
    | .ok es => finish txt srt file name b es

end Bx.Benchmark
