import Verif.Spec.Main
import Verif.Props.ResultFile
import Verif.Props.Lpcore
import Mathlib.Data.List.Perm.Subperm

/-!
# The files of the program
-/

namespace Bx.MainProgram

open Bx.Spec.MainProgram Bx.Spec.ResultFile
open ResultFile (commentLine writeValues readLines readLines_commentLine readLines_values
  readLines_nil State)

theorem writeVariables_eq : ∀ (vs : List Int) (ns : List String), ns.length = vs.length →
    writeVariables vs ns = writeValues ns vs
  | [], [], _ => rfl
  | v :: vs, n :: ns, h => by
    rw [writeVariables, writeValues, writeVariables_eq vs ns (by simpa using h)]

theorem flat_oneLine {t : Texts} (ht : NumbersOneLine t) (l : List Solution) :
    '\n' ∉ l.flatMap fun s => t.plain s.value ++ [' '] := by
  intro h
  obtain ⟨s, _, hs⟩ := List.mem_flatMap.mp h
  simp only [List.mem_append, List.mem_singleton] at hs
  rcases hs with hs | hs
  · exact ht.plain _ hs
  · exact absurd hs (by decide)

theorem readLines_triple {t : Texts} (ht : NumbersOneLine t) (a b c : Nat) {what : String}
    (hw : '\n' ∉ what.toList) : '\n' ∉ triple t a b c what := by
  simp only [triple, List.cons_append, List.append_assoc, List.mem_append, List.mem_cons, not_or]
  exact ⟨ht.nat _, by decide, ht.nat _, by decide, ht.nat _, hw⟩

theorem readLines_problem {t : Texts} (ht : NumbersOneLine t) (pb : RawProblem) (rest : List Char)
    (s : State) : readLines (resumeProblem t pb ++ rest) s = readLines rest s := by
  unfold resumeProblem
  simp only [List.append_assoc]
  rw [readLines_commentLine (l := " objective : ".toList) rfl (by decide)
      (by cases pb.type <;> decide),
    readLines_commentLine (l := " mode: ".toList) rfl (by decide) (by split <;> decide),
    readLines_commentLine (l := " variables: ".toList) rfl (by decide)
      (readLines_triple ht _ _ _ (by decide)),
    readLines_commentLine (l := " constraints: ".toList) rfl (by decide)
      (readLines_triple ht _ _ _ (by decide))]

theorem readLines_resume {t : Texts} (ht : NumbersOneLine t) {i : Info} (hi : InfoOneLine i)
    {r : Result} {sol : Solution} (hst : r.status = .success)
    (hs : r.solutions.getLast? = some sol)
    (ha : r.affected.names.length = r.affected.values.length)
    (hv : r.variableName.length = sol.variables.length)
    (hr : ∀ n ∈ r.affected.names ++ r.variableName, Readable n) :
    ∃ x, resumeResult t i r = .ok x ∧ ∀ s, readLines x s =
      .ok ((s.addAll r.affected.names r.affected.values).addAll r.variableName sol.variables) := by
  obtain ⟨ta, ea, ra⟩ := readLines_values _ _ ha fun n hn => hr n (List.mem_append_left _ hn)
  obtain ⟨tb, eb, rb⟩ := readLines_values _ _ hv fun n hn => hr n (List.mem_append_right _ hn)
  rw [← writeVariables_eq _ _ hv] at eb
  refine ⟨_, by simp only [resumeResult, hst, hs, ea, eb]; rfl, fun s => ?_⟩
  simp only [List.append_assoc]
  rw [readLines_commentLine (l := " solver................: ".toList) rfl (by decide) hi.method,
    readLines_commentLine (l := " constraints...........: ".toList) rfl (by decide) hi.constraints,
    readLines_commentLine (l := " variables.............: ".toList) rfl (by decide) hi.vars,
    readLines_commentLine (l := " duration..............: ".toList) rfl (by decide)
      hi.fixedDuration,
    readLines_commentLine (l := " loop..................: ".toList) rfl (by decide) (ht.nat _),
    readLines_commentLine (l := " status................: ".toList) rfl (by decide) (by decide),
    readLines_commentLine (l := " value.................: ".toList) rfl (by decide) (ht.fixed _),
    readLines_commentLine (l := " other value...........: ".toList) rfl (by decide)
      (flat_oneLine ht _),
    readLines_commentLine (l := " variables.............: ".toList) rfl (by decide) (by simp), ra]
  have := rb [] (s.addAll r.affected.names r.affected.values)
  rw [List.append_nil] at this
  rw [this, readLines_nil]

/-- The text of the solution file of a success, and what it is read as. -/
theorem solutionText_read {t : Texts} (ht : NumbersOneLine t) {time : List Char}
    (htime : '\n' ∉ time) (pb : RawProblem) {i : Info} (hi : InfoOneLine i) {r : Result}
    {sol : Solution} (hst : r.status = .success) (hs : r.solutions.getLast? = some sol)
    (ha : r.affected.names.length = r.affected.values.length)
    (hv : r.variableName.length = sol.variables.length)
    (hr : ∀ n ∈ r.affected.names ++ r.variableName, Readable n) :
    ∃ x, solutionText t time pb (.ok (r, i)) = (x, none) ∧
      ResultFile.readResult (some x) = .ok (ResultFile.readBack r sol) := by
  obtain ⟨x, hx, hread⟩ := readLines_resume ht hi hst hs ha hv hr
  refine ⟨_, by simp only [solutionText, if_pos hst, hs, hx]; rfl, ?_⟩
  simp only [ResultFile.readResult, List.append_assoc]
  rw [readLines_problem ht,
    readLines_commentLine (l := " solver starts: ".toList) rfl (by decide) (by simp),
    readLines_commentLine (l := " solver finishes: ".toList) rfl (by decide) htime,
    readLines_commentLine (l := " Solution found: ".toList) rfl (by decide) (ht.fixed _), hread]
  simp [State.addAll, ResultFile.readBack, bind, Except.bind, pure, Except.pure]

/-! ## Writing raises no exception -/

theorem writeValues_no_exn : ∀ {ns : List String} {vs : List Int} {e : String},
    writeValues ns vs ≠ .error (.exn e)
  | [], _, _, h => by unfold writeValues at h; cases h
  | _ :: _, [], _, h => by unfold writeValues at h; cases h
  | n :: ns, v :: vs, e, h => by
    unfold writeValues at h
    cases hr : writeValues ns vs with
    | error g => rw [hr] at h; cases h; exact writeValues_no_exn hr
    | ok x => rw [hr] at h; cases h

theorem writeVariables_no_exn : ∀ {vs : List Int} {ns : List String} {e : String},
    writeVariables vs ns ≠ .error (.exn e)
  | [], _, _, h => by unfold writeVariables at h; cases h
  | _ :: _, [], _, h => by unfold writeVariables at h; cases h
  | v :: vs, n :: ns, e, h => by
    unfold writeVariables at h
    cases hr : writeVariables vs ns with
    | error g => rw [hr] at h; cases h; exact writeVariables_no_exn hr
    | ok x => rw [hr] at h; cases h

theorem resumeResult_no_exn {t : Texts} {i : Info} {r : Result} {e : String} :
    resumeResult t i r ≠ .error (.exn e) := by
  intro h
  unfold resumeResult at h
  split at h
  all_goals try cases h
  split at h
  · cases h
  · rename_i s _
    cases ha : writeValues r.affected.names r.affected.values with
    | error g => rw [ha] at h; cases h; exact writeValues_no_exn ha
    | ok a =>
      rw [ha] at h
      cases hb : writeVariables s.variables r.variableName with
      | error g => rw [hb] at h; cases h; exact writeVariables_no_exn hb
      | ok b => rw [hb] at h; cases h

/-! ## A valid result names each variable once -/

theorem readAll_mem {c : Lpcore.Cache} : ∀ {names : List String} {vs : List Int},
    Lpcore.readAll c names = .ok vs → ∀ n ∈ names, ∃ b, c.lookup n = some b
  | [], _, _, n, hn => by simp at hn
  | m :: names, vs, h, n, hn => by
    unfold Lpcore.readAll at h
    split at h
    · cases h
    · rename_i b hb
      obtain ⟨r, hr, _⟩ := bind_eq_ok.mp h
      rcases List.mem_cons.mp hn with rfl | hn
      · exact ⟨b, hb⟩
      · exact readAll_mem hr n hn

theorem writeAll_mem : ∀ {ns : List String} {vs : List Int} {c : Lpcore.Cache} {n : String}
    {b : Bool}, (Lpcore.writeAll ns vs c).lookup n = some b → n ∈ ns ∨ ∃ b, c.lookup n = some b
  | [], vs, c, n, b, h => by
    unfold Lpcore.writeAll at h
    exact .inr ⟨b, h⟩
  | m :: ns, [], c, n, b, h => by
    unfold Lpcore.writeAll at h
    exact .inr ⟨b, h⟩
  | m :: ns, v :: vs, c, n, b, h => by
    unfold Lpcore.writeAll at h
    rcases writeAll_mem h with h1 | ⟨b1, h1⟩
    · exact .inl (List.mem_cons_of_mem _ h1)
    · unfold Lpcore.Cache.write at h1
      rw [List.lookup_cons] at h1
      by_cases hm : n = m
      · exact .inl (by simp [hm])
      · have : (n == m) = false := by simpa using hm
        rw [this] at h1
        exact .inr ⟨b1, h1⟩

/-- A result that `is_valid_solution` accepts names each variable of the problem exactly once. -/
theorem covers_of_valid {pb : RawProblem} (hnd : pb.names.Nodup) {r : Result}
    (h : Lpcore.isValidSolution pb r = .ok true) : ∃ s, Props.Covers pb r s := by
  unfold Lpcore.isValidSolution at h
  by_cases hst : r.status = .success
  · rw [if_neg (by simpa using hst)] at h
    cases hs : r.solutions.getLast? with
    | none => rw [hs] at h; cases h
    | some s =>
      rw [hs] at h
      dsimp only at h
      obtain ⟨_, _, h⟩ := bind_eq_ok.mp h
      obtain ⟨_, h2, h⟩ := bind_eq_ok.mp h
      obtain ⟨_, h3, h⟩ := bind_eq_ok.mp h
      obtain ⟨v, hv, _⟩ := bind_eq_ok.mp h
      rw [check_eq_ok, beq_iff_eq] at h2 h3
      unfold Lpcore.makeVariableValue at hv
      rw [if_neg (by simpa using hst)] at hv
      rw [hs] at hv
      dsimp only at hv
      obtain ⟨_, h4, hv⟩ := bind_eq_ok.mp hv
      obtain ⟨_, h5, hv⟩ := bind_eq_ok.mp hv
      rw [check_eq_ok, beq_iff_eq] at h4 h5
      refine ⟨s, hst, hs, h4, h5, ?_⟩
      have hsub : pb.names ⊆ r.affected.names ++ r.variableName := by
        intro n hn
        obtain ⟨b, hb⟩ := readAll_mem hv n hn
        rcases writeAll_mem hb with h6 | ⟨b, h6⟩
        · exact List.mem_append_right _ h6
        · rcases writeAll_mem h6 with h7 | ⟨b, h7⟩
          · exact List.mem_append_left _ h7
          · cases h7
      refine ((List.subperm_of_subset hnd hsub).perm_of_length_le ?_).symm
      rw [List.length_append]
      omega
  · rw [if_pos hst] at h; cases h

end Bx.MainProgram
