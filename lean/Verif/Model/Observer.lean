import Verif.Model.Params
import Verif.Model.SparseMatrix

/-!
# The observers of a run

Models `lib/src/pnm.hpp` and `lib/src/observer.hpp`: the images and the texts that a run leaves
in the working directory with the parameter `observer-type` (`itm-solver-common.hpp:128, 137`,
`282-300`).

* A `float` is a number of `Params.D`: the arithmetic on finite numbers is exact and the
  conversions from `double` and `long double` are the identity.
* A file is the list of its bytes; the files are in the order of their creation.
* The file that cannot be opened loses what is written to it.
* The vectors `P` and `pi` of each observation are arbitrary lists.
-/

namespace Bx.Observer

open Params (D longMax)
open Sparse (Matrix row RowValue)

/-- `colormap::rgb` (`pnm.hpp:40-51`). -/
structure Rgb where
  red : Nat
  green : Nat
  blue : Nat
  deriving DecidableEq, Repr

/-- `static_cast<std::uint8_t>(q)` (`pnm.hpp:89-91`): the conversion of a number outside the range
of the type is undefined. -/
def toByte (q : Rat) : Outcome Nat :=
  if -1 < q ∧ q < 256 then .ok ⌊q⌋.toNat else .error (.ub "static_cast<std::uint8_t>")

/-- The channels before their conversion (`pnm.hpp:72-87`). -/
def channels (lo hi v : Rat) : Rat × Rat × Rat :=
  let dv := hi - lo
  if v < lo + 1 / 4 * dv then (0, 4 * (v - lo) / dv, 1)
  else if v < lo + 1 / 2 * dv then (0, 1, 1 + 4 * (lo + 1 / 4 * dv - v) / dv)
  else if v < lo + 3 / 4 * dv then (4 * (v - lo - 1 / 2 * dv) / dv, 1, 0)
  else (1, 1 + 4 * (lo + 3 / 4 * dv - v) / dv, 0)

/-- `colormap::operator()` (`pnm.hpp:61-92`).  NaN goes through the comparisons and its conversion
is undefined. -/
def colormap (lo hi : Rat) (v : D) : Outcome Rgb :=
  let v := if v.lt (.fin lo) then .fin lo else v
  let v := if (D.fin hi).lt v then .fin hi else v
  match v with
  | .fin q => do
    let (r, g, b) := channels lo hi q
    .ok ⟨← toByte (r * 255), ← toByte (g * 255), ← toByte (b * 255)⟩
  | _ => .error (.ub "static_cast<std::uint8_t>")

/-- The bytes of a text. -/
def bytes (s : String) : List Nat := s.toList.map Char.toNat

/-- The stores of three bytes at an address of a buffer (`pnm.hpp:111-113`,
`observer.hpp:109-111`). -/
def poke (buf : List Nat) (at_ : Nat) (c : Rgb) : Outcome (List Nat) :=
  if at_ + 2 < buf.length then
    .ok (((buf.set at_ c.red).set (at_ + 1) c.green).set (at_ + 2) c.blue)
  else .error (.ub "m_buffer[]")

/-- A read of `P` or `pi`. -/
def readAt (l : List D) (i : Nat) : Outcome D :=
  match l[i]? with
  | some v => .ok v
  | none => .error (.ub "P[]")

/-! ## `pnm_vector` and the image of the multipliers -/

/-- `pnm_vector` (`pnm.hpp:306-312`), with what was written to `m_ofs`; `file` is `none` when it is
not open. -/
structure PnmVector where
  buffer : Option (List Nat)
  file : Option (List Nat)
  height : Int
  width : Nat
  deriving DecidableEq, Repr

/-- The constructor (`pnm.hpp:323-337`).  The product of line 331 is on `long int`. -/
def PnmVector.make (opens : Bool) (m : Nat) (loop : Int) : Outcome PnmVector :=
  if !opens then .ok ⟨none, none, loop, m⟩
  else if loop * m > longMax ∨ loop * m < -longMax - 1 then .error (.ub "m_heigth * m_width")
  else if loop * m > 0 then
    .ok ⟨some (List.replicate (3 * m) 0), some (bytes s!"P6 {m} {loop} 255 "), loop, m⟩
  else .ok ⟨none, some [], loop, m⟩

/-- `m_ofs.write(m_buffer.get(), size())` (`pnm.hpp:342, 375`).  With a null buffer the size is 0,
or the stream is not open. -/
def PnmVector.write (v : PnmVector) : PnmVector :=
  { v with file := v.file.map (· ++ v.buffer.getD []) }

/-- `flush` (`pnm.hpp:370-377`). -/
def PnmVector.flush (v : PnmVector) : PnmVector :=
  if v.height = 0 then v else { v.write with height := v.height - 1 }

/-- `n` writes of the buffer. -/
def PnmVector.writes : Nat → PnmVector → PnmVector
  | 0, v => v
  | n + 1, v => writes n v.write

/-- The destructor (`pnm.hpp:339-343`). -/
def PnmVector.close (v : PnmVector) : Option (List Nat) :=
  (PnmVector.writes v.height.toNat v).file

/-- The loop of `pi_pnm_observer::make_observation` (`observer.hpp:63-64`), from the index `i`, with
`n` turns left.  The iterator is not incremented. -/
def piLoop (pi : List D) : Nat → Nat → Option (List Nat) → Outcome (Option (List Nat))
  | 0, _, b => .ok b
  | n + 1, i, b => do
    let c ← colormap (-1) 1 (← readAt pi i)
    match b with
    | none => .error (.contract "m_entry.m_colors")
    | some buf => do
      let buf ← poke buf 0 c
      piLoop pi n (i + 1) (some buf)

/-- `pi_pnm_observer::make_observation` (`observer.hpp:53-67`). -/
def piObserve (m : Nat) (v : PnmVector) (pi : List D) : Outcome PnmVector := do
  check (decide ((-1 : Rat) < 1)) "lower < upper"
  let b ← piLoop pi m 0 v.buffer
  .ok { v with buffer := b }.flush

/-! ## `pnm_array` and the images of the preferences -/

/-- `pnm_array` (`pnm.hpp:250-253`). -/
structure PnmArray where
  buffer : Option (List Nat)
  width : Nat
  height : Nat

/-- The product of two `unsigned int`. -/
def mulU (a b : Nat) : Nat := (a * b) % 2 ^ 32

/-- `size` (`pnm.hpp:268-271`). -/
def arraySize (m n : Nat) : Nat := mulU (mulU 3 m) n

/-- The constructor (`pnm.hpp:255-261`). -/
def PnmArray.make (m n : Nat) : PnmArray :=
  ⟨if mulU n m > 0 then some (List.replicate (arraySize m n) 0) else none, n, m⟩

/-- The elements of a row (`observer.hpp:105-112`), with `operator()(row, col)`
(`pnm.hpp:292-298`).  The address is computed first, but it is not used before the colour. -/
def paintRow (a : PnmArray) (P : List D) (k : Nat) : List RowValue → List Nat → Outcome (List Nat)
  | [], buf => .ok buf
  | e :: es, buf => do
    check (decide (k < a.height)) "row < m_heigth"
    check (decide (e.column < a.width)) "col < m_width"
    let c ← colormap (-1) 1 (← readAt P e.value)
    let buf ← poke buf ((k * a.width + e.column) * 3) c
    paintRow a P k es buf

/-- The rows (`observer.hpp:102-113`), from the row `k`, with `n` rows left. -/
def paintRows (a : PnmArray) (ap : Matrix) (P : List D) : Nat → Nat → List Nat →
    Outcome (List Nat)
  | 0, _, buf => .ok buf
  | n + 1, k, buf => do
    let buf ← paintRow a P k (← row ap k) buf
    paintRows a ap P n (k + 1) buf

/-- A file that was created. -/
structure File where
  name : String
  text : List Nat
  deriving DecidableEq, Repr

/-- `ap_pnm_observer` (`observer.hpp:73-76`), with the files it created. -/
structure Frames where
  frame : Nat := 0
  files : List File := []
  deriving DecidableEq, Repr

/-- `ap_pnm_observer::make_observation` (`observer.hpp:89-116`) and `operator()(filename)`
(`pnm.hpp:273-280`).  `opens` tells which files can be opened.  The buffer of zeros is cleared
again (line 101): the same. -/
def apObserve (opens : String → Bool) (base : String) (m n : Nat) (fs : Frames) (ap : Matrix)
    (P : List D) : Outcome Frames := do
  check (decide ((-1 : Rat) < 1)) "lower < upper"
  let a := PnmArray.make m n
  match a.buffer with
  | none => .ok fs
  | some buf => do
    let buf ← paintRows a ap P m 0 buf
    let name := s!"{base}-P-{fs.frame}.pnm"
    .ok { frame := fs.frame + 1
          files := if opens name then
              fs.files ++ [⟨name, bytes s!"P6 {a.width} {a.height} 255 " ++ buf⟩]
            else fs.files }

/-! ## `pnm_observer` -/

/-- The observations of a run by `pnm_observer` (`observer.hpp:205-226`), one after each pass of the
main loop (`itm-solver-common.hpp:135-137`): `P` and `pi`. -/
def pnmLoop (opens : String → Bool) (base : String) (m n : Nat) (ap : Matrix) :
    List (List D × List D) → PnmVector → Frames → Outcome (PnmVector × Frames)
  | [], v, fs => .ok (v, fs)
  | o :: os, v, fs => do
    let v ← piObserve m v o.2
    let fs ← apObserve opens base m n fs ap o.1
    pnmLoop opens base m n ap os v fs

/-- A run with `pnm_observer`: the constructor (`observer.hpp:211-214`), the observations and the
destructor.  The answer is the content of the image of the multipliers and the files of the
preferences. -/
def pnmRun (opens : String → Bool) (base : String) (m n : Nat) (loop : Int) (ap : Matrix)
    (os : List (List D × List D)) : Outcome (Option (List Nat) × List File) := do
  let v ← PnmVector.make (opens s!"{base}-pi.pnm") m loop
  let (v, fs) ← pnmLoop opens base m n ap os v {}
  .ok (v.close, fs.files)

/-! ## `file_observer` -/

/-- `pi_file_observer` (`observer.hpp:119-133`): `len` is `none` when it was never set, `file` is
`none` when it is not open. -/
structure PiFile where
  len : Option Int
  file : Option (List Nat)

/-- The constructor (`observer.hpp:127-133`): `m_len` is not initialised. -/
def PiFile.make (opens : Bool) : PiFile := ⟨none, if opens then some [] else none⟩

/-- `m_ofs << ' ' << pi[i]` (`observer.hpp:146-147`), from the index `i`, with `n` turns left. -/
def piTexts (num : D → String) (pi : List D) : Nat → Nat → Outcome (List Nat)
  | 0, _ => .ok []
  | n + 1, i => do
    let v ← readAt pi i
    let l ← piTexts num pi n (i + 1)
    .ok (bytes s!" {num v}" ++ l)

/-- `pi_file_observer::make_observation` (`observer.hpp:135-155`); `num` is the text of a number.
Reading `m_len` before it is set is undefined.  A number of constraints that is 0 does not end the
loop of line 146: it is not modelled since a run has constraints. -/
def piFileObserve (num : D → String) (m : Nat) (s : PiFile) (pi : List D) : Outcome PiFile :=
  match s.file with
  | none => .ok s
  | some f =>
    match s.len with
    | none => .error (.ub "m_len")
    | some len => do
      let v ← readAt pi 0
      let l ← if len > 1 then piTexts num pi (m - 1) 1 else .ok []
      .ok { s with file := some (f ++ bytes (num v) ++ l ++ bytes "\n") }

/-- `m_value[it->column] = P[it->value]` (`observer.hpp:192-193`). -/
def fillRow (P : List D) : List RowValue → List D → Outcome (List D)
  | [], l => .ok l
  | e :: es, l => do
    let v ← readAt P e.value
    if e.column < l.length then fillRow P es (l.set e.column v)
    else .error (.ub "m_value[]")

/-- The rows of `ap_file_observer::make_observation` (`observer.hpp:188-200`), from the row `k`, with
`r` rows left.  `m_value` has `n` values. -/
def textRows (num : D → String) (n : Nat) (ap : Matrix) (P : List D) : Nat → Nat →
    Outcome (List Nat)
  | 0, _ => .ok []
  | r + 1, k => do
    let l ← fillRow P (← row ap k) (List.replicate n (.fin 0))
    let rest ← textRows num n ap P r (k + 1)
    .ok ((l.flatMap fun v => bytes s!"{num v} ") ++ bytes "\n" ++ rest)

/-- `ap_file_observer::make_observation` (`observer.hpp:179-201`). -/
def apFileObserve (opens : String → Bool) (num : D → String) (base : String) (m n : Nat)
    (fs : Frames) (ap : Matrix) (P : List D) : Outcome Frames := do
  let name := s!"{base}-P-{fs.frame}.txt"
  let text ← textRows num n ap P m 0
  .ok { frame := fs.frame + 1
        files := if opens name then fs.files ++ [⟨name, text⟩] else fs.files }

/-- The observations of a run by `file_observer` (`observer.hpp:228-249`). -/
def fileLoop (opens : String → Bool) (num : D → String) (base : String) (m n : Nat) (ap : Matrix) :
    List (List D × List D) → PiFile → Frames → Outcome (PiFile × Frames)
  | [], s, fs => .ok (s, fs)
  | o :: os, s, fs => do
    let s ← piFileObserve num m s o.2
    let fs ← apFileObserve opens num base m n fs ap o.1
    fileLoop opens num base m n ap os s fs

/-- A run with `file_observer` (`observer.hpp:228-249`). -/
def fileRun (opens : String → Bool) (num : D → String) (base : String) (m n : Nat) (ap : Matrix)
    (os : List (List D × List D)) : Outcome (Option (List Nat) × List File) := do
  let (s, fs) ← fileLoop opens num base m n ap os (PiFile.make (opens s!"{base}-pi.txt")) {}
  .ok (s.file, fs.files)

end Bx.Observer
