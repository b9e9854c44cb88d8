import Verif.Proofs.Rename
import Verif.Proofs.RenameFile
import Verif.Props.Dispatch
import Verif.Props.Grammar

/-!
# C137: the names do not matter

The same problem with other names for its variables and other labels for its constraints.  The names are carried to the
result and nothing else changes.
-/

namespace Bx.Rename

open Spec Dispatch Itm

variable {f g : String → String} {ρ : Type}

/-- C137 for the preprocessing: the reduced problem is the same up to the names, and so is the abort. -/
theorem C137_preprocess (raw : RawProblem) : Preprocess.preprocess (renameRaw f g raw) =
    (Preprocess.preprocess raw).map (renameProblem f g) :=
  prepared_rename true raw

/-- C137 for `solve`: with other names and the same choices of the outside, the result is the same up to the names
of its variables, and the run that stops the process stops it for the same reason. -/
theorem C137_solve (upd : Engine → Slv → ρ → Nat → Assign → Outcome Assign) (w : World ρ) (c : Option Ctx)
    (raw : RawProblem) : Dispatch.solve (execute upd w) c (renameRaw f g raw) =
      (Dispatch.solve (execute upd w) c raw).map (renameResult f) := by
  cases c with
  | none => rfl
  | some c =>
    show (prepared _ _ >>= _) = (prepared _ _ >>= _).map _
    rw [prepared_rename]
    cases prepared c.preprocessing raw with
    | error e => rfl
    | ok pb => exact itm_rename (execute_rename w) c false pb

/-- C137 for `optimize`, in every mode. -/
theorem C137_optimize (upd : Engine → Slv → ρ → Nat → Assign → Outcome Assign) (s : Setting ρ) (c : Ctx)
    (raw : RawProblem) :
    Dispatch.optimize (execute upd s.untuned) (s.tuners upd c) (some c) (renameRaw f g raw) =
      (Dispatch.optimize (execute upd s.untuned) (s.tuners upd c) (some c) raw).map (renameResult f) := by
  show (prepared _ _ >>= _) = (prepared _ _ >>= _).map _
  rw [prepared_rename]
  cases prepared c.preprocessing raw with
  | error e => rfl
  | ok pb =>
    have hc : ∀ t k pb, itm (execute upd (s.world t k)) c true (renameProblem f g pb) =
        (itm (execute upd (s.world t k)) c true pb).map (renameResult f) :=
      fun t k pb => itm_rename (execute_rename _) c true pb
    have hman : (s.tuners upd c).manual (renameProblem f g pb) =
        ((s.tuners upd c).manual pb).map (renameResult f) := manual_rename (fun k t => hc t k pb) _
    simp only [Except.map, ok_bind]
    by_cases h4 : hasFlag c.mode 4 = true
    · rw [if_pos h4, if_pos h4]
      exact branch_rename (fun k pb => hc s.first k pb) pb
    rw [if_neg h4, if_neg h4]
    by_cases h2 : hasFlag c.mode 2 = true
    · rw [if_pos h2, if_pos h2]
      show (match s.library with | none => _ | some l => _) = Except.map _ (match s.library with | none => _ | some l => _)
      cases s.library with
      | none => exact hman
      | some l =>
        have hman' : Dispatch.manual (fun k t => itm (execute upd (s.world t k)) c true (renameProblem f g pb)) s.first =
          (Dispatch.manual (fun k t => itm (execute upd (s.world t k)) c true pb) s.first).map (renameResult f) := hman
        simp only [nlopt]
        cases search l s.value s.steps [] with
        | none => rfl
        | some q =>
          cases q with
          | error e => rfl
          | ok q =>
            obtain ⟨code, x⟩ := q
            simp only [Option.getD_some, hman']
            split
            · cases tuning x with
              | error e => rfl
              | ok t => exact hc _ _ pb
            · rfl
    rw [if_neg h2, if_neg h2]
    by_cases h1 : hasFlag c.mode 1 = true
    · rw [if_pos h1, if_pos h1]
      exact hman
    rw [if_neg h1, if_neg h1]
    exact itm_rename (execute_rename _) c true pb

/-! ## The file -/

open Parser in
/-- C137 for a file: two files written correctly that differ by the names of their variables and the labels of their
constraints, whatever their layout, are read as the same problem up to the names. -/
theorem C137_file {φ ψ : Token → Token} (hφ : φ.Injective) (scan : Token → Option Params.D)
    (hs : ∀ t, Reserved t → scan t = none) (val : Token → Rat) (ival : Token → Int) (f : File)
    (ok : FileOk scan val ival f) (ok' : FileOk scan val ival (f.rename φ ψ)) (text text' : List Char)
    (h : Denotes text f.tokens) (h' : Denotes text' (f.rename φ ψ).tokens) (fuel : Nat)
    (hf : f.tokens.length < fuel) (hf' : (f.rename φ ψ).tokens.length < fuel) :
    ∃ p, makeProblem scan fuel text = .ok p ∧ makeProblem scan fuel text' = .ok (renameRead φ ψ p) := by
  refine ⟨_, C68_read_as_written_partial scan hs val ival f ok text h fuel hf, ?_⟩
  rw [C68_read_as_written_partial scan hs val ival _ ok' text' h' fuel hf',
    problem_rename hφ val ival f fun c hc l hl => ((ok.cons c hc).label l hl).nonempty]

/-! ## The check of a solution -/

open Lpcore

theorem writeAll_rename : ∀ (ns : List String) (vs : List Int) (c : Cache),
    writeAll (ns.map f) vs (c.map (Prod.map f id)) = (writeAll ns vs c).map (Prod.map f id)
  | [], _, _ => by simp [writeAll]
  | _ :: _, [], _ => by simp [writeAll]
  | n :: ns, v :: vs, c => writeAll_rename ns vs (c.write n v)

theorem lookup_rename (hf : f.Injective) (n : String) : ∀ c : Cache,
    (c.map (Prod.map f id)).lookup (f n) = c.lookup n
  | [] => rfl
  | (k, v) :: c => by
    have : (f n == f k) = (n == k) := by
      rw [Bool.eq_iff_iff, beq_iff_eq, beq_iff_eq]
      exact hf.eq_iff
    simp only [List.map_cons, Prod.map, List.lookup, this]
    cases n == k with
    | true => rfl
    | false => exact lookup_rename hf n c

theorem readAll_rename (hf : f.Injective) (c : Cache) : ∀ ns : List String,
    readAll (c.map (Prod.map f id)) (ns.map f) = readAll c ns
  | [] => rfl
  | n :: ns => by
    simp only [List.map_cons, readAll]
    rw [lookup_rename hf, readAll_rename hf c ns]

theorem makeVariableValue_rename (hf : f.Injective) (names : List String) (r : Result) :
    makeVariableValue (names.map f) (renameResult f r) = makeVariableValue names r := by
  unfold makeVariableValue
  have h := fun vs => writeAll_rename (f := f) r.affected.names vs []
  have h' := fun vs c => writeAll_rename (f := f) r.variableName vs c
  simp only [renameResult, renameAffected, List.length_map]
  simp only [List.map_nil] at h
  simp only [h, h', readAll_rename hf]

theorem allConstraints_rename (vars : List Int) (bad : Int → Int → Bool) : ∀ cs : List Constr,
    allConstraints vars bad (cs.map (renameConstr g)) = allConstraints vars bad cs
  | [] => rfl
  | c :: cs => by
    simp only [List.map_cons, allConstraints, allConstraints_rename vars bad cs]
    rfl

/-- C137 for the check of a solution: distinct names that stay distinct do not change its answer. -/
theorem C137_check (hf : f.Injective) (raw : RawProblem) (r : Result) :
    Lpcore.isValidSolution (renameRaw f g raw) (renameResult f r) = Lpcore.isValidSolution raw r := by
  unfold Lpcore.isValidSolution isValidSolutionImpl
  simp only [show (renameRaw f g raw).names = raw.names.map f from rfl, makeVariableValue_rename hf, List.length_map,
    show (renameRaw f g raw).values = raw.values from rfl, show (renameRaw f g raw).eqs = raw.eqs.map (renameConstr g)
      from rfl, show (renameRaw f g raw).les = raw.les.map (renameConstr g) from rfl,
    show (renameRaw f g raw).ges = raw.ges.map (renameConstr g) from rfl, allConstraints_rename,
    show (renameResult f r).variableName = r.variableName.map f from rfl,
    show (renameResult f r).affected.names = r.affected.names.map f from rfl,
    show (renameResult f r).status = r.status from rfl, show (renameResult f r).solutions = r.solutions from rfl]

/-- C137 for the value of a solution. -/
theorem C137_value (hf : f.Injective) (raw : RawProblem) (r : Result) :
    computeSolution (renameRaw f g raw) (renameResult f r) = computeSolution raw r := by
  unfold computeSolution computeSolutionImpl
  simp only [show (renameRaw f g raw).names = raw.names.map f from rfl, makeVariableValue_rename hf, List.length_map,
    show (renameRaw f g raw).values = raw.values from rfl,
    show (renameRaw f g raw).objective = raw.objective from rfl,
    show (renameResult f r).variableName = r.variableName.map f from rfl,
    show (renameResult f r).affected.names = r.affected.names.map f from rfl,
    show (renameResult f r).status = r.status from rfl, show (renameResult f r).solutions = r.solutions from rfl]

/-- Two variables that take the same name are not told apart any more: a solution of x0 + x1 = 1 is refused. -/
theorem C137_equal_names_break_the_check : ∃ (raw : RawProblem) (r : Result) (f : String → String),
    raw.names.Nodup ∧ Lpcore.isValidSolution raw r = .ok true ∧
    Lpcore.isValidSolution (renameRaw f id raw) (renameResult f r) = .ok false :=
  ⟨{ eqs := [{ elems := [⟨1, 0⟩, ⟨1, 1⟩], value := 1 }], names := ["a", "b"],
     values := [⟨0, 1, .binary⟩, ⟨0, 1, .binary⟩] },
    { status := .success, variableName := ["a", "b"], solutions := [⟨[0, 1], 0⟩] }, fun _ => "a",
    by decide, by decide +kernel, by decide +kernel⟩

/-! ## Examples -/

def longName (s : String) : String := "long_" ++ s

theorem longName_injective : longName.Injective := fun a b h => by
  have := congrArg String.toList h
  simp only [longName, String.toList_append, List.append_cancel_left_eq] at this
  exact String.ext this

/-- The reduced problem of `Preprocess.exRaw` with long names and without labels: the names kept and the names of the
variables that got a value are long. -/
example : Preprocess.preprocess (renameRaw longName (fun _ => "") Preprocess.exRaw) =
    .ok (renameProblem longName (fun _ => "") Preprocess.exRed) ∧
    (renameProblem longName (fun _ => "") Preprocess.exRed).names = ["long_a", "long_b", "long_c", "long_e"] ∧
    (renameProblem longName (fun _ => "") Preprocess.exRed).affected.names = ["long_d", "long_f"] := by
  refine ⟨?_, by decide +kernel, by decide +kernel⟩
  rw [C137_preprocess, Preprocess.exRaw_runs]
  rfl

/-- The random solver on the problem with long names: the same solution, with the long names. -/
example : Dispatch.solve (execute (fun _ => Rand.updRow) Dispatch.exWorld) (some { solver := .random })
    (renameRaw longName (fun _ => "") Preprocess.exRaw) =
      .ok (renameResult longName (Optimizer.exResult [⟨[1, 0, 0, 1], 11⟩])) := by
  rw [C137_solve, Dispatch.exWorld_runs]
  rfl

/-- A solution checked with the short names and with the long names. -/
example : Lpcore.isValidSolution (renameRaw longName id Preprocess.exRaw) (renameResult longName
    { status := .success, variableName := ["a", "b", "c"], affected := ⟨["d", "e", "f"], [0, 0, 1]⟩,
      solutions := [⟨[1, 0, 0], 11⟩] }) = .ok true := by
  rw [C137_check longName_injective]
  decide +kernel

section
open Parser

/-- The file of `Parser.exText` with other names, another layout, and the same label for all constraints. -/
def longText : List Char := lines [
  "MAXIMIZE cost: 2 x1_z + 3 x2_z - x3_z + 0.5 x4_z + x1_z + 10",
  "SUBJECT to row: x1_z + x2_z + x3_z <= 2", " row: x2_z - 2 x3_z + x4_z >= -1", " x1_z + x4_z = 1",
  " row: x1_z + x1_z + x3_z <= 3",
  "Bounds x3_z <= 4 Binary x1_z x2_z x4_z General x3_z End"]

def longToken (t : Token) : Token := t ++ "_z".toList

theorem longText_denotes : Denotes longText (exFile.rename longToken fun _ => "row".toList).tokens := by
  refine ⟨by decide +kernel, ?_, .inl (by decide +kernel)⟩
  generalize hT : (exFile.rename longToken fun _ => "row".toList).tokens = T
  have e : T = "maximize".toList :: ((T.drop 1).take 16 ++ "subject".toList :: "to".toList :: T.drop 19) := by
    subst hT; decide +kernel
  have e' : tokensOf longText = "MAXIMIZE".toList :: ((T.drop 1).take 16 ++
      "SUBJECT".toList :: "to".toList :: (tokensOf longText).drop 19) := by subst hT; decide +kernel
  rw [e, e']
  subst hT
  exact .subject (x := ("subject", "to")) (by decide) (by decide +kernel) (by decide) (by decide)
    (by decide) (by decide) (by decide) (forall2_of (by decide +kernel))

example : makeProblem scanf 100 longText = .ok (renameRead longToken (fun _ => "row".toList) exProblem) := by
  obtain ⟨p, h, h'⟩ := C137_file (φ := longToken) (ψ := fun _ => "row".toList)
    (List.append_left_injective _) scanf scanf_reserved scanVal scanInt exFile exFile_ok (by decide +kernel) exText
    longText exFile_denotes longText_denotes 100 (by decide +kernel) (by decide +kernel)
  rw [h', ← Except.ok.inj (h.symm.trans exText_read)]

end

end Bx.Rename
