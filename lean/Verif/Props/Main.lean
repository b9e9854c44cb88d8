import Verif.Proofs.Main
import Verif.Proofs.ParserNames
import Verif.Props.Tuners
import Verif.Props.Parser
import Verif.Props.Grammar
import Verif.Props.CommandLine

/-!
# C93-C95: what a command leaves
-/

namespace Bx.MainProgram

open Bx.Spec.MainProgram Bx.Spec.ResultFile Spec
open Params (SolverParams)

/-! ## C93: the solution file -/

/-- A command on one problem file: accepted, and not in the benchmark mode. -/
structure OneFile (m : CommandLine.Main) (f : String) : Prop where
  accepted : m.status = .success
  solving : m.bench = false
  files : m.filenames = [f]

theorem afterParse_one {w : World} {version : String} {m : CommandLine.Main} {f : String}
    (h : OneFile m f) : afterParse w version m = single w m f := by
  obtain ⟨h1, h2, h3⟩ := h
  simp [afterParse, h1, h2, h3]

theorem one_success {c : CommandLine.Conv} {w : World} {version : String} {args : List String}
    {f : String} (hm : OneFile (CommandLine.parse c args) f) (ht : NumbersOneLine w.texts)
    (htime : '\n' ∉ w.time) (hw : w.writable (w.solName f) = true) {pb : RawProblem}
    (hread : w.read f = .ok (some pb)) {r : Result} {i : Info} (hi : InfoOneLine i)
    (hrun : w.run (CommandLine.parse c args).parameters (CommandLine.parse c args).optimize pb =
      .ok (r, i)) {sol : Solution} (hst : r.status = .success)
    (hs : r.solutions.getLast? = some sol)
    (ha : r.affected.names.length = r.affected.values.length)
    (hv : r.variableName.length = sol.variables.length)
    (hr : ∀ n ∈ r.affected.names ++ r.variableName, Readable n) :
    ∃ text, main c w version args = { files := [(w.solName f, text)] } ∧
      ResultFile.readResult (some text) = .ok (ResultFile.readBack r sol) := by
  obtain ⟨x, h1, h2⟩ := solutionText_read ht htime pb hi hst hs ha hv hr
  refine ⟨x, ?_, h2⟩
  simp [main, afterParse_one hm, single, hread, hrun, h1, caught, ending, World.file, hw]

/-- C93.  When the run of the only problem of a command succeeds, the process ends normally without
a message and its only file holds the solution: the file is read as a result with the same
assignment, the same validity and the same value. -/
theorem C93_solution_file_reads_back (c : CommandLine.Conv) (w : World) (version : String)
    (args : List String) (f : String) (hm : OneFile (CommandLine.parse c args) f)
    (ht : NumbersOneLine w.texts) (htime : '\n' ∉ w.time)
    (hw : w.writable (w.solName f) = true) (pb : RawProblem) (hread : w.read f = .ok (some pb))
    (r : Result) (i : Info) (hi : InfoOneLine i)
    (hrun : w.run (CommandLine.parse c args).parameters (CommandLine.parse c args).optimize pb =
      .ok (r, i)) (hc : Complete r)
    (hr : ∀ n ∈ r.affected.names ++ r.variableName, Readable n) :
    ∃ text r', main c w version args =
        { files := [(w.solName f, text)], err := [], ending := .exit 0 } ∧
      ResultFile.readResult (some text) = .ok r' ∧ Complete r' ∧
      assignment r' = assignment r ∧ ∀ pb' : RawProblem,
        Lpcore.isValidSolution pb' r' = Lpcore.isValidSolution pb' r ∧
        Lpcore.computeSolution pb' r' = Lpcore.computeSolution pb' r := by
  obtain ⟨hst, ha, sol, hs, hv⟩ := hc
  obtain ⟨text, h1, h2⟩ := one_success (version := version) hm ht htime hw hread hi hrun hst hs ha
    hv hr
  obtain ⟨h3, h4⟩ := ResultFile.readBack_assignment hs ha hv
  exact ⟨text, _, h1, h2, h3, h4, ResultFile.readBack_check hst hs ha hv⟩

theorem readable_of_chars {l : List Char} (hl : l.length ≤ 512)
    (h : ∀ c ∈ l, Parser.isCharName c = true) : Readable (String.ofList l) := by
  refine ⟨?_, ?_, ?_, ?_⟩
  · rw [String.toList_ofList]; omega
  · rw [String.toList_ofList]
    intro hc; exact absurd (h _ hc) (by decide)
  · rw [String.toList_ofList]
    intro hc; exact absurd (h _ hc) (by decide)
  · intro u v e
    rw [String.toList_ofList] at e
    exact absurd (h '\\' (by simp [e])) (by decide)

/-- The names of a linear problem that was read can be written in a file of results. -/
theorem raw_readable {scan : Parser.Token → Option Params.D} {fuel : Nat} {text : List Char}
    {p : Parser.PProblem} {pb : RawProblem} (h : Parser.makeProblem scan fuel text = .ok p)
    (hr : p.toRaw = some pb) (hq : pb.objective.qelems = []) : ∀ n ∈ pb.names, Readable n := by
  unfold Parser.PProblem.toRaw at hr
  simp only [Option.bind_eq_bind, Option.bind_eq_some_iff, Option.some.injEq] at hr
  obtain ⟨es, he, qs, hqs, v, -, rfl⟩ := hr
  have hq' : qs = [] := hq
  subst hq'
  have hqe : p.qelems = [] := by
    have := Parser.mapM_option hqs
    cases hpq : p.qelems with
    | nil => rfl
    | cons a l => rw [hpq] at this; cases this
  intro n hn
  obtain ⟨l, hl, rfl⟩ := List.mem_map.mp hn
  obtain ⟨h1, h2⟩ := Parser.makeProblem_names h hqe l hl
  exact readable_of_chars h1 h2

/-- C42 and C93 for problems that were read: when the problem comes from a text, is linear, and the
result is valid for it, nothing is asked of the names. -/
theorem C93_read_problem_partial (c : CommandLine.Conv) (w : World) (version : String)
    (args : List String) (f : String) (hm : OneFile (CommandLine.parse c args) f)
    (ht : NumbersOneLine w.texts) (htime : '\n' ∉ w.time)
    (hw : w.writable (w.solName f) = true)
    (scan : Parser.Token → Option Params.D) (fuel : Nat) (lp : List Char) (p : Parser.PProblem)
    (hp : Parser.makeProblem scan fuel lp = .ok p) (pb : RawProblem) (hraw : p.toRaw = some pb)
    (hq : pb.objective.qelems = []) (hread : w.read f = .ok (some pb))
    (r : Result) (i : Info) (hi : InfoOneLine i)
    (hrun : w.run (CommandLine.parse c args).parameters (CommandLine.parse c args).optimize pb =
      .ok (r, i)) (hvalid : Lpcore.isValidSolution pb r = .ok true) :
    ∃ text r', main c w version args =
        { files := [(w.solName f, text)], err := [], ending := .exit 0 } ∧
      ResultFile.readResult (some text) = .ok r' ∧ Complete r' ∧ assignment r' = assignment r ∧
      Lpcore.isValidSolution pb r' = .ok true ∧
      Lpcore.computeSolution pb r' = Lpcore.computeSolution pb r := by
  have wf := Parser.C37_well_formed_raw scan fuel lp p pb hp hraw
  obtain ⟨s, hc⟩ := covers_of_valid wf.names_nodup hvalid
  obtain ⟨text, r', h1, h2, h3, h4, h5⟩ := C93_solution_file_reads_back c w version args f hm ht htime
    hw pb hread r i hi hrun ⟨hc.success, hc.affected_len, s, hc.last, hc.vars_len⟩
    fun n hn => raw_readable hp hraw hq n (hc.perm.subset hn)
  exact ⟨text, r', h1, h2, h3, h4, (h5 pb).1.trans hvalid, (h5 pb).2⟩

theorem assignment_pairs {r : Result} {s : Solution} (h : r.solutions.getLast? = some s) :
    assignment r = Props.pairs r s := by
  simp [assignment, Props.pairs, h, List.zip_map_right]
  rfl

/-- C93, from the problem file to the solution file.  The problem file holds a linear problem; the
command solves or optimizes it, in any mode, with or without preprocessing; the run reports a success.
With preprocessing, the problem has a solution; without, it has a constraint and no variable that its
bounds fix.  Then the process ends normally and the solution file, read back, is valid for the problem:
it assigns each variable as a solution of the problem does, and `compute_solution` gives the value of
this solution.  What is missing: quadratic problems (`C93_quadratic_file_unreadable`) and the other
problems, for which C32 and C75 are false. -/
theorem C93_from_problem_to_solution_partial {ρ : Type} (c : CommandLine.Conv) (w : World)
    (version : String) (args : List String) (f : String)
    (hm : OneFile (CommandLine.parse c args) f) (ht : NumbersOneLine w.texts)
    (htime : '\n' ∉ w.time) (hw : w.writable (w.solName f) = true)
    (scan : Parser.Token → Option Params.D) (fuel : Nat) (lp : List Char) (p : Parser.PProblem)
    (hp : Parser.makeProblem scan fuel lp = .ok p) (pb : RawProblem) (hraw : p.toRaw = some pb)
    (hq : pb.objective.qelems = []) (h0 : pb.names ≠ [])
    (hint : ∀ c ∈ pb.eqs ++ pb.ges ++ pb.les, ∀ x,
      -2147483648 ≤ lhs x c.elems ∧ lhs x c.elems ≤ 2147483647)
    (hread : w.read f = .ok (some pb))
    (upd : Dispatch.Engine → Itm.Slv → ρ → Nat → Assign → Outcome Assign) (st : Dispatch.Setting ρ)
    (hst : st.Ok) (ctx : Dispatch.Ctx)
    (hpre : if ctx.preprocessing then ∃ x, IsSolution pb x
      else pb.eqs ++ pb.ges ++ pb.les ≠ [] ∧ Dispatch.Unfixed pb) (r : Result) (i : Info) (hi : InfoOneLine i)
    (hrun : w.run (CommandLine.parse c args).parameters (CommandLine.parse c args).optimize pb =
      .ok (r, i))
    (hres : if (CommandLine.parse c args).optimize then
        Dispatch.optimize (Dispatch.execute upd st.untuned) (st.tuners upd ctx) (some ctx) pb = .ok r
      else Dispatch.solve (Dispatch.execute upd st.untuned) (some ctx) pb = .ok r)
    (hok : r.status = .success) :
    ∃ text r' x, main c w version args =
        { files := [(w.solName f, text)], err := [], ending := .exit 0 } ∧
      ResultFile.readResult (some text) = .ok r' ∧
      Lpcore.isValidSolution pb r' = .ok true ∧
      IsSolution pb x ∧
      (∀ j n, pb.names[j]? = some n → (n, x j) ∈ assignment r') ∧
      Lpcore.computeSolution pb r' = .ok (Spec.objective pb.objective x) := by
  have wf := Parser.C37_well_formed_raw scan fuel lp p pb hp hraw
  obtain ⟨s, x, h1, h2, h3, h4, h5⟩ := Dispatch.C75_tuned_success_solves_the_raw_problem_partial upd
    st hst ctx pb wf h0 hpre hint r (by
      split at hres
      · exact .inr hres
      · exact .inl hres) hok
  obtain ⟨text, r', g1, g2, g3, g4, g5, g6⟩ := C93_read_problem_partial c w version args f hm ht
    htime hw scan fuel lp p hp pb hraw hq hread r i hi hrun h2
  obtain ⟨s', hc⟩ := covers_of_valid wf.names_nodup h2
  have hss : s' = s := by
    have := hc.last
    rw [h1] at this
    exact (Option.some.inj this).symm
  subst hss
  refine ⟨text, r', x, g1, g2, g5, h5, ?_, ?_⟩
  · rw [g4, assignment_pairs (s := s') hc.last]
    exact h4
  · rw [g6]
    exact Props.C02_compute_solution_exact pb r s' x wf h0 hc h4

/-! ## C93: what does not hold -/

/-- C93 is false of runs that are not a success: their file has only comments, and it is read as a
success, without variable. -/
theorem C93_failed_run_reads_as_success (c : CommandLine.Conv) (w : World) (version : String)
    (args : List String) (f : String) (hm : OneFile (CommandLine.parse c args) f)
    (ht : NumbersOneLine w.texts) (htime : '\n' ∉ w.time)
    (hw : w.writable (w.solName f) = true) (pb : RawProblem) (hread : w.read f = .ok (some pb))
    (r : Result) (i : Info)
    (hrun : w.run (CommandLine.parse c args).parameters (CommandLine.parse c args).optimize pb =
      .ok (r, i)) (hfail : r.status ≠ .success) :
    ∃ text, main c w version args =
        { files := [(w.solName f, text)], err := [], ending := .exit 0 } ∧
      ResultFile.readResult (some text) = .ok
        { status := .success, variableName := [], solutions := [⟨[], 0⟩] } := by
  refine ⟨resumeProblem w.texts pb ++ ResultFile.commentLine "\\ solver starts: " [] ++
    ResultFile.commentLine "\\ solver finishes: " w.time ++
    ResultFile.commentLine "\\ Solution not found. Missing constraints: " (w.texts.nat r.remaining),
    ?_, ?_⟩
  · simp [main, afterParse_one hm, single, hread, hrun, solutionText, hfail, caught, ending,
      World.file, hw]
  · have h := ResultFile.readLines_commentLine (label := "\\ Solution not found. Missing constraints: ")
      (l := " Solution not found. Missing constraints: ".toList) rfl (by decide)
      (ht.nat r.remaining) [] {}
    rw [List.append_nil] at h
    simp only [ResultFile.readResult, List.append_assoc]
    rw [readLines_problem ht,
      ResultFile.readLines_commentLine (l := " solver starts: ".toList) rfl (by decide) (by simp),
      ResultFile.readLines_commentLine (l := " solver finishes: ".toList) rfl (by decide) htime,
      h, ResultFile.readLines_nil]
    rfl

/-! ## C94: the messages and the exit status -/

theorem several_report (w : World) (m : CommandLine.Main) : ∀ fs : List String,
    (several w m fs).2.2 = none →
    (several w m fs).2.1 = fs.filterMap (report w.read (w.run m.parameters m.optimize)) ∧
    ∀ f ∈ fs, ∃ o, w.read f = .ok o ∧ ∀ pb, o = some pb →
      (∃ r i, w.run m.parameters m.optimize pb = .ok (r, i)) ∨
      ∃ e, w.run m.parameters m.optimize pb = .error (.exn e)
  | [], _ => ⟨rfl, by simp⟩
  | f :: fs, h => by
    unfold several at h ⊢
    cases hr : w.read f with
    | error e => simp [hr] at h
    | ok o =>
      cases o with
      | none =>
        simp only [hr] at h ⊢
        obtain ⟨h1, h2⟩ := several_report w m fs h
        refine ⟨by simp [report, hr, h1], ?_⟩
        intro g hg
        rcases List.mem_cons.mp hg with rfl | hg
        · exact ⟨none, hr, by simp⟩
        · exact h2 g hg
      | some pb =>
        simp only [hr] at h ⊢
        have key : ∀ (msgs : List Msg), caught
            (problemText w.texts (w.run m.parameters m.optimize pb)).2 = (msgs, none) →
            msgs = (report w.read (w.run m.parameters m.optimize) f).toList ∧
            ((∃ r i, w.run m.parameters m.optimize pb = .ok (r, i)) ∨
              ∃ e, w.run m.parameters m.optimize pb = .error (.exn e)) := by
          intro msgs hc
          cases ho : w.run m.parameters m.optimize pb with
          | error e =>
            rw [ho] at hc
            cases e <;> simp [problemText, caught] at hc
            subst hc
            simp [report, hr, ho]
          | ok q =>
            obtain ⟨r, i⟩ := q
            rw [ho] at hc
            refine ⟨?_, .inl ⟨r, i, rfl⟩⟩
            simp only [problemText] at hc
            split at hc
            · split at hc
              · simp [caught] at hc
              · simp only [caught, Prod.mk.injEq] at hc
                simp [report, hr, ho, ← hc.1]
            · simp only [caught, Prod.mk.injEq] at hc
              simp [report, hr, ho, ← hc.1]
        cases hc : caught (problemText w.texts (w.run m.parameters m.optimize pb)).2 with
        | mk msgs g =>
          cases g with
          | some g => rw [hc] at h; simp at h
          | none =>
            rw [hc] at h
            simp only at h ⊢
            obtain ⟨h1, h2⟩ := several_report w m fs h
            obtain ⟨k1, k2⟩ := key msgs hc
            refine ⟨?_, ?_⟩
            · rw [h1, k1, List.filterMap_cons]
              cases report w.read (w.run m.parameters m.optimize) f <;> rfl
            · intro g hg
              rcases List.mem_cons.mp hg with rfl | hg
              · exact ⟨_, hr, fun pb' e => by cases e; exact k2⟩
              · exact h2 g hg

theorem single_report (w : World) (m : CommandLine.Main) (f : String)
    (h : (single w m f).ending = .exit 0) :
    (single w m f).err = [f].filterMap (report w.read (w.run m.parameters m.optimize)) ∧
    ∃ o, w.read f = .ok o ∧ ∀ pb, o = some pb →
      (∃ r i, w.run m.parameters m.optimize pb = .ok (r, i)) ∨
      ∃ e, w.run m.parameters m.optimize pb = .error (.exn e) := by
  unfold single at h ⊢
  cases hr : w.read f with
  | error e => simp [hr] at h
  | ok o =>
    cases o with
    | none => simp [report, hr]
    | some pb =>
      simp only [hr] at h ⊢
      cases ho : w.run m.parameters m.optimize pb with
      | error e =>
        rw [ho] at h
        cases e <;> simp [solutionText, caught, ending] at h
        simp [solutionText, caught, report, hr, ho]
      | ok q =>
        obtain ⟨r, i⟩ := q
        rw [ho] at h
        have hnone : (solutionText w.texts w.time pb (.ok (r, i))).2 = none ∨
            ∃ g, (solutionText w.texts w.time pb (.ok (r, i))).2 = some g ∧ ∀ e, g ≠ .exn e := by
          unfold solutionText
          dsimp only
          split
          · split
            · exact .inr ⟨_, rfl, by simp⟩
            · split
              · rename_i g hg
                refine .inr ⟨_, rfl, ?_⟩
                rintro e rfl
                exact resumeResult_no_exn hg
              · exact .inl rfl
          · exact .inl rfl
        rcases hnone with hn | ⟨g, hg, hne⟩
        · simp [hn, caught, report, hr, ho]
        · rw [hg] at h
          exfalso
          cases g <;> simp [caught, ending] at h
          exact hne _ rfl

/-- C94.  When a command on problem files is not killed, it says something of each file that could
not be read and of each run that raised an exception, in the order of the files, and nothing
else. -/
theorem C94_each_failure_is_reported (c : CommandLine.Conv) (w : World) (version : String)
    (args : List String) (m : CommandLine.Main) (hm : CommandLine.parse c args = m)
    (ha : m.status = .success) (hf : m.filenames ≠ []) (hb : m.bench = false)
    (h : (main c w version args).ending = .exit 0) :
    (main c w version args).err =
      m.filenames.filterMap (report w.read (w.run m.parameters m.optimize)) ∧
    ∀ f ∈ m.filenames, ∃ o, w.read f = .ok o ∧ ∀ pb, o = some pb →
      (∃ r i, w.run m.parameters m.optimize pb = .ok (r, i)) ∨
      ∃ e, w.run m.parameters m.optimize pb = .error (.exn e) := by
  subst hm
  unfold main afterParse at h ⊢
  rw [if_neg (by simpa using ha), if_neg hf, if_neg (by simp [hb])] at h ⊢
  split at h
  · rename_i f hfs
    rw [hfs]
    obtain ⟨h1, h2⟩ := single_report w _ f h
    exact ⟨h1, by simpa using h2⟩
  · simp only
    refine several_report w _ _ ?_
    simp only [ending] at h
    split at h
    · assumption
    · cases h

theorem benches_report (w : World) (version : String) (m : CommandLine.Main) : ∀ fs : List String,
    (benches w version m fs).2 = none →
    ∀ f ∈ fs, (w.bench m.parameters f (benchName version m) = .ok true) ∨
      (w.bench m.parameters f (benchName version m) = .ok false ∧
        Msg.benchFailed f ∈ (benches w version m fs).1)
  | [], _ => by simp
  | f :: fs, h => by
    unfold benches at h ⊢
    cases hb : w.bench m.parameters f (benchName version m) with
    | error e => rw [hb] at h; simp at h
    | ok b =>
      rw [hb] at h
      simp only at h ⊢
      have ih := benches_report w version m fs h
      intro g hg
      rcases List.mem_cons.mp hg with rfl | hg
      · cases b
        · exact .inr ⟨hb, by simp⟩
        · exact .inl hb
      · rcases ih g hg with h1 | ⟨h1, h2⟩
        · exact .inl h1
        · refine .inr ⟨h1, ?_⟩
          cases b
          · simp [h2]
          · simpa using h2

/-- C94.  Silence is success: when the process ends normally and says nothing on the standard error,
the command was accepted with at least one file, and each file was read and its run returned a
result, or, in the benchmark mode, each benchmark succeeded. -/
theorem C94_silence_means_done (c : CommandLine.Conv) (w : World) (version : String)
    (args : List String) (m : CommandLine.Main) (hm : CommandLine.parse c args = m)
    (h : ∃ k, (main c w version args).ending = .exit k)
    (herr : (main c w version args).err = []) :
    m.status = .success ∧ m.filenames ≠ [] ∧ ∀ f ∈ m.filenames,
      if m.bench then w.bench m.parameters f
        (if m.benchName = "" then "bx-" ++ version else m.benchName) = .ok true
      else ∃ pb r i, w.read f = .ok (some pb) ∧ w.run m.parameters m.optimize pb = .ok (r, i) := by
  by_cases ha : m.status = .success
  · by_cases hf : m.filenames = []
    · subst hm
      unfold main afterParse at herr
      rw [if_neg (by simpa using ha), if_pos hf] at herr
      simp at herr
    · refine ⟨ha, hf, ?_⟩
      by_cases hb : m.bench = true
      · intro f hfm
        rw [if_pos hb]
        subst hm
        unfold main afterParse at h herr
        rw [if_neg (by simpa using ha), if_neg hf, if_pos hb] at h herr
        simp only at h herr
        have hn : (benches w version (CommandLine.parse c args)
            (CommandLine.parse c args).filenames).2 = none := by
          obtain ⟨k, h⟩ := h
          simp only [ending] at h
          split at h
          · assumption
          · cases h
        rcases benches_report w version _ _ hn f hfm with h1 | ⟨_, h2⟩
        · exact h1
        · rw [herr] at h2; cases h2
      · intro f hfm
        rw [if_neg hb]
        have h0 : (main c w version args).ending = .exit 0 := by
          obtain ⟨k, h⟩ := h
          subst hm
          have : ∀ o, ending o = .exit k → ending o = .exit 0 := by
            intro o ho
            cases o with
            | none => rfl
            | some g => cases ho
          unfold main afterParse at h ⊢
          rw [if_neg (by simpa using ha), if_neg hf, if_neg hb] at h ⊢
          split at h
          · unfold single at h ⊢
            split at h
            · cases h
            · rfl
            · exact this _ h
          · exact this _ h
        obtain ⟨h1, h2⟩ := C94_each_failure_is_reported c w version args m hm ha hf (by simpa using hb)
          h0
        rw [herr] at h1
        have h3 : report w.read (w.run m.parameters m.optimize) f = none := by
          have := List.filterMap_eq_nil_iff.mp h1.symm f hfm
          exact this
        obtain ⟨o, ho, hrun⟩ := h2 f hfm
        cases o with
        | none => simp [report, ho] at h3
        | some pb =>
          rcases hrun pb rfl with ⟨r, i, hr⟩ | ⟨e, he⟩
          · exact ⟨pb, r, i, ho, hr⟩
          · simp [report, ho, he] at h3
  · subst hm
    unfold main afterParse at herr
    rw [if_pos ha] at herr
    simp at herr

theorem ending_code {o : Option Fault} {k : Nat} (h : ending o = .exit k) : k = 0 := by
  cases o with
  | none => cases h; rfl
  | some g => cases h

theorem afterParse_code {w : World} {version : String} {m : CommandLine.Main} {k : Nat}
    (ha : m.status = .success) (h : (afterParse w version m).ending = .exit k) : k = 0 := by
  unfold afterParse at h
  rw [if_neg (by simpa using ha)] at h
  split at h
  · cases h; rfl
  · split at h
    · exact ending_code h
    · split at h
      · unfold single at h
        split at h
        · cases h
        · cases h; rfl
        · exact ending_code h
      · exact ending_code h

/-- C94.  The process ends with the status 1 exactly when the command line is refused, and then it
writes no file and names the argument; otherwise its exit status is 0. -/
theorem C94_exit_status (c : CommandLine.Conv) (w : World) (version : String)
    (args : List String) :
    ((main c w version args).ending = .exit 1 ↔
      (CommandLine.parse c args).status ≠ .success) ∧
    ((CommandLine.parse c args).status ≠ .success →
      main c w version args = { files := [], err := [.refused (CommandLine.parse c args).parseArg],
                                ending := .exit 1 }) ∧
    ∀ k, (main c w version args).ending = .exit k → k = 0 ∨ k = 1 := by
  by_cases ha : (CommandLine.parse c args).status = .success
  · refine ⟨⟨fun h => ?_, fun h => absurd ha h⟩, fun h => absurd ha h, fun k h => ?_⟩
    · exact absurd (afterParse_code ha h) (by decide)
    · exact .inl (afterParse_code ha h)
  · have : main c w version args =
        { files := [], err := [.refused (CommandLine.parse c args).parseArg],
          ending := .exit 1 } := by
      unfold main afterParse
      rw [if_pos ha]
    refine ⟨⟨fun _ => ha, fun _ => by rw [this]⟩, fun _ => this, fun k h => ?_⟩
    rw [this] at h
    cases h; exact .inr rfl

/-- C94, what the exit status does not tell: a command whose file cannot be read, whose run raises an
exception, or that has no file, ends with the status 0. -/
theorem C94_failures_exit_zero (c : CommandLine.Conv) (w : World) (version : String)
    (args : List String) (hacc : (CommandLine.parse c args).status = .success)
    (h : (CommandLine.parse c args).filenames = [] ∨ ∃ f, OneFile (CommandLine.parse c args) f ∧
      (w.read f = .ok none ∨ ∃ pb e, w.read f = .ok (some pb) ∧
        w.run (CommandLine.parse c args).parameters (CommandLine.parse c args).optimize pb =
          .error (.exn e))) :
    (main c w version args).ending = .exit 0 ∧ (main c w version args).err ≠ [] := by
  rcases h with h | ⟨f, hm, h | ⟨pb, e, h1, h2⟩⟩
  · simp [main, afterParse, hacc, h]
  · simp [main, afterParse_one hm, single, h]
  · simp [main, afterParse_one hm, single, h1, h2, solutionText, caught, ending]

/-! ## C95: the file of several problems -/

/-- A command on several problem files. -/
structure ManyFiles (m : CommandLine.Main) : Prop where
  accepted : m.status = .success
  solving : m.bench = false
  files : 2 ≤ m.filenames.length

theorem afterParse_many {w : World} {version : String} {m : CommandLine.Main} (h : ManyFiles m) :
    afterParse w version m = { files := w.file w.resName (several w m m.filenames).1,
                               err := (several w m m.filenames).2.1,
                               ending := ending (several w m m.filenames).2.2 } := by
  obtain ⟨h1, h2, h3⟩ := h
  unfold afterParse
  rw [if_neg (by simpa using h1), if_neg (by rintro e; simp [e] at h3), if_neg (by simp [h2])]
  split
  · rename_i f e; simp [e] at h3
  · rfl

/-- The line of a problem file, with its newline, or nothing when the file cannot be read. -/
def lineOf (w : World) (m : CommandLine.Main) (f : String) : List Char :=
  match w.read f with
  | .ok (some pb) =>
    match w.run m.parameters m.optimize pb with
    | .ok (r, i) => line w.texts f r i ++ ['\n']
    | .error _ => []
  | _ => []

/-- The problem file is read and its run returns a result, with a solution when it is a success, or
the file is refused. -/
def Ends (w : World) (m : CommandLine.Main) (f : String) : Prop :=
  w.read f = .ok none ∨ ∃ pb r i, w.read f = .ok (some pb) ∧
    w.run m.parameters m.optimize pb = .ok (r, i) ∧ (r.status = .success → r.solutions ≠ [])

theorem afterParse_files {w : World} {version : String} {m : CommandLine.Main} {n : String}
    {text : List Char} (h : (n, text) ∈ (afterParse w version m).files) :
    w.writable n = true ∧
    ((∃ f, OneFile m f ∧ n.toList = f.toList ++ "-".toList ++ w.pid ++ ".sol".toList) ∨
      ManyFiles m ∧ n.toList = "baryonyx-".toList ++ w.pid ++ ".res".toList) := by
  have hfile : ∀ name t, (n, text) ∈ w.file name t → w.writable n = true ∧ n = name := by
    intro name t hm
    unfold World.file at hm
    split at hm
    · rename_i hw
      cases List.mem_singleton.1 hm
      exact ⟨hw, rfl⟩
    · cases hm
  unfold afterParse at h
  split at h
  · cases h
  rename_i hacc
  split at h
  · cases h
  rename_i hne
  split at h
  · cases h
  rename_i hb
  split at h
  · rename_i f hf
    unfold single at h
    split at h
    · cases h
    · cases h
    · obtain ⟨h1, h2⟩ := hfile _ _ h
      refine ⟨h1, .inl ⟨f, ⟨by simpa using hacc, by simpa using hb, hf⟩, ?_⟩⟩
      subst h2
      unfold World.solName
      rw [String.toList_ofList, List.append_assoc, List.append_assoc, List.append_assoc]
      rfl
  · rename_i h3
    obtain ⟨h1, h2⟩ := hfile _ _ h
    refine ⟨h1, .inr ⟨⟨by simpa using hacc, by simpa using hb, ?_⟩, ?_⟩⟩
    · match m.filenames, hne, h3 with
      | [], hne, _ => exact absurd rfl hne
      | [f], _, h3 => exact absurd rfl (h3 f)
      | f :: g :: fs, _, _ => simp
    · subst h2
      exact String.toList_ofList

/-- C93.  The files that a command leaves: none that cannot be opened; for one problem the name of its
file, the process and `.sol`; for several one file, named after the process. -/
theorem C93_names_of_the_files (c : CommandLine.Conv) (w : World) (version : String)
    (args : List String) (n : String) (text : List Char)
    (h : (n, text) ∈ (main c w version args).files) :
    w.writable n = true ∧
    ((∃ f, OneFile (CommandLine.parse c args) f ∧
        n.toList = f.toList ++ "-".toList ++ w.pid ++ ".sol".toList) ∨
      ManyFiles (CommandLine.parse c args) ∧
        n.toList = "baryonyx-".toList ++ w.pid ++ ".res".toList) :=
  afterParse_files h

/-- C93, C94: a solution that cannot be written is lost without a message, and the process ends with
the status 0. -/
theorem C93_unwritable_is_silent (c : CommandLine.Conv) (w : World) (version : String)
    (args : List String) (f : String) (hm : OneFile (CommandLine.parse c args) f)
    (ht : NumbersOneLine w.texts) (htime : '\n' ∉ w.time)
    (hw : ∀ n, w.writable n = false) (pb : RawProblem) (hread : w.read f = .ok (some pb))
    (r : Result) (i : Info) (hi : InfoOneLine i)
    (hrun : w.run (CommandLine.parse c args).parameters (CommandLine.parse c args).optimize pb =
      .ok (r, i)) (hc : Complete r)
    (hr : ∀ n ∈ r.affected.names ++ r.variableName, Readable n) :
    main c w version args = { files := [], err := [], ending := .exit 0 } := by
  obtain ⟨hst, ha, sol, hs, hv⟩ := hc
  obtain ⟨x, h1, h2⟩ := solutionText_read ht htime pb hi hst hs ha hv hr
  simp [main, afterParse_one hm, single, hread, hrun, h1, caught, ending, World.file, hw]

theorem several_ends (w : World) (m : CommandLine.Main) (gs : List String) : ∀ fs : List String,
    (∀ f ∈ fs, Ends w m f) →
    (several w m (fs ++ gs)).1 = fs.flatMap (lineOf w m) ++ (several w m gs).1 ∧
    (several w m (fs ++ gs)).2.2 = (several w m gs).2.2
  | [], _ => by simp
  | f :: fs, h => by
    obtain ⟨h1, h2⟩ := several_ends w m gs fs fun g hg => h g (by simp [hg])
    rw [List.cons_append]
    generalize hT : several w m gs = T at h1 h2 ⊢
    unfold several
    rcases h f (by simp) with hr | ⟨pb, r, i, hr, hrun, hs⟩
    · simp only [hr]
      exact ⟨by rw [h1]; simp [lineOf, hr], h2⟩
    · simp only [hr, hrun]
      by_cases hst : r.status = .success
      · obtain ⟨s, hsol⟩ : ∃ s, r.solutions.getLast? = some s := by
          cases hl : r.solutions.getLast? with
          | none => exact absurd (List.getLast?_eq_none_iff.mp hl) (hs hst)
          | some s => exact ⟨s, rfl⟩
        simp only [problemText, hst, if_true, hsol, caught]
        refine ⟨?_, h2⟩
        rw [h1]
        simp [lineOf, hr, hrun, line, hst, hsol]
      · simp only [problemText, if_neg hst, caught]
        refine ⟨?_, h2⟩
        rw [h1]
        cases hst' : r.status
        all_goals first
          | exact absurd hst' hst
          | simp [lineOf, hr, hrun, line, hst']

/-- C95.  A command on several problem files, all of which are refused by the reader or have a run
that returns a result, ends normally and writes one file: one line per problem that was read, in the
order of the command, with its name and its values or that there is none. -/
theorem C95_one_line_per_problem (c : CommandLine.Conv) (w : World) (version : String)
    (args : List String) (m : CommandLine.Main) (hm : CommandLine.parse c args = m)
    (h : ManyFiles m) (hw : w.writable w.resName = true)
    (problem : String → Option (Result × Info))
    (hends : ∀ f ∈ m.filenames, match problem f with
      | none => w.read f = .ok none
      | some (r, i) => ∃ pb, w.read f = .ok (some pb) ∧
          w.run m.parameters m.optimize pb = .ok (r, i) ∧
          (r.status = .success → r.solutions ≠ [])) :
    (main c w version args).ending = .exit 0 ∧
    (main c w version args).files = [(w.resName, m.filenames.flatMap fun f =>
      match problem f with
      | none => []
      | some (r, i) => line w.texts f r i ++ ['\n'])] := by
  subst hm
  have hl : ∀ f ∈ (CommandLine.parse c args).filenames,
      Ends w (CommandLine.parse c args) f ∧ lineOf w (CommandLine.parse c args) f =
        match problem f with
        | none => []
        | some (r, i) => line w.texts f r i ++ ['\n'] := by
    intro f hf
    have := hends f hf
    cases hp : problem f with
    | none => rw [hp] at this; exact ⟨.inl this, by simp [lineOf, this]⟩
    | some q =>
      obtain ⟨r, i⟩ := q
      rw [hp] at this
      obtain ⟨pb, h1, h2, h3⟩ := this
      exact ⟨.inr ⟨pb, r, i, h1, h2, h3⟩, by simp [lineOf, h1, h2]⟩
  obtain ⟨h1, h2⟩ := several_ends w _ [] _ fun f hf => (hl f hf).1
  rw [List.append_nil] at h1 h2
  unfold main
  rw [afterParse_many h]
  refine ⟨by simp only [h2]; rfl, ?_⟩
  simp only [World.file, hw, if_true, h1, several, List.append_nil]
  congr 2
  rw [List.flatMap_congr fun f hf => (hl f hf).2]

/-- C95, at every point where the process can be killed: the file starts with the lines of the
problems before it. -/
theorem C95_killed_keeps_the_lines_before (c : CommandLine.Conv) (w : World) (version : String)
    (args : List String) (m : CommandLine.Main) (hm : CommandLine.parse c args = m)
    (h : ManyFiles m) (hw : w.writable w.resName = true) (before after : List String)
    (hsplit : m.filenames = before ++ after)
    (problem : String → Option (Result × Info))
    (hends : ∀ f ∈ before, match problem f with
      | none => w.read f = .ok none
      | some (r, i) => ∃ pb, w.read f = .ok (some pb) ∧
          w.run m.parameters m.optimize pb = .ok (r, i) ∧
          (r.status = .success → r.solutions ≠ [])) :
    ∃ rest, (main c w version args).files = [(w.resName, (before.flatMap fun f =>
      match problem f with
      | none => []
      | some (r, i) => line w.texts f r i ++ ['\n']) ++ rest)] := by
  subst hm
  have hl : ∀ f ∈ before,
      Ends w (CommandLine.parse c args) f ∧ lineOf w (CommandLine.parse c args) f =
        match problem f with
        | none => []
        | some (r, i) => line w.texts f r i ++ ['\n'] := by
    intro f hf
    have := hends f hf
    cases hp : problem f with
    | none => rw [hp] at this; exact ⟨.inl this, by simp [lineOf, this]⟩
    | some q =>
      obtain ⟨r, i⟩ := q
      rw [hp] at this
      obtain ⟨pb, h1, h2, h3⟩ := this
      exact ⟨.inr ⟨pb, r, i, h1, h2, h3⟩, by simp [lineOf, h1, h2]⟩
  obtain ⟨h1, h2⟩ := several_ends w (CommandLine.parse c args) after before fun f hf => (hl f hf).1
  unfold main
  rw [afterParse_many h]
  simp only [World.file, hw, if_true, hsplit, h1]
  exact ⟨_, by rw [List.flatMap_congr fun f hf => (hl f hf).2]⟩

/-- C95 is false of runs that raise an exception: the name of their problem has no newline, and the
line of the next problem is joined to it. -/
theorem C95_exception_joins_lines (c : CommandLine.Conv) (w : World) (version : String)
    (args : List String) (m : CommandLine.Main) (hm : CommandLine.parse c args = m)
    (h : ManyFiles m) (hw : w.writable w.resName = true) (f g : String)
    (hfiles : m.filenames = [f, g]) (pf pg : RawProblem) (hf : w.read f = .ok (some pf))
    (hg : w.read g = .ok (some pg)) (e : String)
    (hrf : w.run m.parameters m.optimize pf = .error (.exn e)) (r : Result) (i : Info)
    (hrg : w.run m.parameters m.optimize pg = .ok (r, i))
    (hs : r.status = .success → r.solutions ≠ []) :
    (main c w version args).files =
      [(w.resName, f.toList ++ ' ' :: (line w.texts g r i ++ ['\n']))] := by
  subst hm
  have he : Ends w (CommandLine.parse c args) g := .inr ⟨pg, r, i, hg, hrg, hs⟩
  obtain ⟨h1, h2⟩ := several_ends w (CommandLine.parse c args) [] [g] (by simpa using he)
  unfold main
  rw [afterParse_many h, hfiles]
  simp only [World.file, hw, if_true]
  rw [several]
  simp only [hf, hrf, problemText, caught, List.append_nil] at h1 ⊢
  rw [h1]
  simp [several, lineOf, hg, hrg]

/-! ## The hypotheses are met -/

/-- A problem file. -/
def exLp : List Char := Parser.lines ["maximize 3 a + 2 b - c + 4 d + f + 7", "st",
  "c1: a + b + c = 1", "c2: b + c >= 0", "c3: d <= 0", "c4: a + d + e <= 2", "c5: f >= 1", "binary",
  "a b c d e f", "end"]

/-- What it holds. -/
def exPb : RawProblem where
  type := .maximize
  objective := { elems := [⟨3, 0⟩, ⟨2, 1⟩, ⟨-1, 2⟩, ⟨4, 3⟩, ⟨1, 4⟩], value := 7 }
  eqs := [{ label := "c1", elems := [⟨1, 0⟩, ⟨1, 1⟩, ⟨1, 2⟩], value := 1, id := 0 }]
  ges := [{ label := "c2", elems := [⟨1, 1⟩, ⟨1, 2⟩], value := 0, id := 1 },
          { label := "c5", elems := [⟨1, 4⟩], value := 1, id := 4 }]
  les := [{ label := "c3", elems := [⟨1, 3⟩], value := 0, id := 2 },
          { label := "c4", elems := [⟨1, 0⟩, ⟨1, 3⟩, ⟨1, 5⟩], value := 2, id := 3 }]
  names := ["a", "b", "c", "d", "f", "e"]
  values := List.replicate 6 ⟨0, 1, .binary⟩

theorem exLp_read : ((Parser.makeProblem Parser.scanf 200 exLp).toOption.bind
    Parser.PProblem.toRaw) = some exPb := by decide +kernel

/-- The texts of the example. -/
def exTexts : Texts := ⟨fun q => if q = 11 then "11.000000".toList else ['?'],
  fun q => if q = 11 then "11".toList else ['?'], fun n => if n = 0 then ['0'] else ['1']⟩

theorem exTexts_ok : NumbersOneLine exTexts where
  fixed q := by simp only [exTexts]; split <;> decide
  plain q := by simp only [exTexts]; split <;> decide
  nat q := by simp only [exTexts]; split <;> decide

def exInfo : Info := ⟨"random".toList, ['5'], ['6'], "0.010000".toList, "0.01".toList⟩

theorem exInfo_ok : InfoOneLine exInfo := ⟨by decide, by decide, by decide, by decide, by decide⟩

/-- A solver run of `Verif.Model.Dispatch` in a process; the file `x.lp` holds the problem of the
example, `y.lp` a problem whose run raises an exception, and the other files cannot be read. -/
def exProc : World where
  texts := exTexts
  pid := "42".toList
  time := "2020-01-01 12:00:00".toList
  read f := if f = "x.lp" then .ok (some exPb) else if f = "y.lp" then .ok (some {}) else .ok none
  run _ _ pb :=
    if pb = {} then .error (.exn "solver_failure") else
      (Dispatch.solve (Dispatch.execute (fun _ => Rand.updRow) Dispatch.exWorld)
        (some { solver := .random }) pb).map fun r => (r, exInfo)
  bench _ _ _ := .ok true
  writable _ := true

/-- The result of the run. -/
def exRes : Result := Optimizer.exResult [⟨[1, 0, 0, 1], 11⟩]

theorem exPb_runs : Dispatch.solve (Dispatch.execute (fun _ => Rand.updRow) Dispatch.exWorld)
    (some { solver := .random }) exPb = .ok exRes := by decide +kernel

theorem exProc_runs (b : Bool) (p : SolverParams) : exProc.run p b exPb = .ok (exRes, exInfo) := by
  simp only [exProc]
  rw [if_neg (by decide), exPb_runs]
  rfl

theorem exPb_solution : IsSolution exPb (fun i => i = 0 || i = 4 || i = 5) := by
  refine ⟨by decide +kernel, ?_⟩
  intro i v h hb
  have hv : v = ⟨0, 1, .binary⟩ := by
    have := List.mem_of_getElem? h
    exact List.eq_of_mem_replicate this
  subst hv
  exact absurd hb (by decide)

theorem ex_one : OneFile (CommandLine.parse CommandLine.sample ["x.lp"]) "x.lp" := by
  constructor <;> decide +kernel

/-- The hypotheses of `C93_from_problem_to_solution_partial` hold of the example, from the text of
the problem to that of the solution. -/
example : ∃ text r' x, main CommandLine.sample exProc "0.5.0" ["x.lp"] =
      { files := [("x.lp-42.sol", text)], err := [], ending := .exit 0 } ∧
    ResultFile.readResult (some text) = .ok r' ∧
    Lpcore.isValidSolution exPb r' = .ok true ∧ IsSolution exPb x ∧
    (∀ j n, exPb.names[j]? = some n → (n, x j) ∈ assignment r') ∧
    Lpcore.computeSolution exPb r' = .ok (Spec.objective exPb.objective x) := by
  obtain ⟨p, hp, hraw⟩ : ∃ p, Parser.makeProblem Parser.scanf 200 exLp = .ok p ∧
      p.toRaw = some exPb := by
    have h := exLp_read
    cases hp : Parser.makeProblem Parser.scanf 200 exLp with
    | error e => rw [hp] at h; cases h
    | ok p => rw [hp] at h; exact ⟨p, rfl, h⟩
  have := C93_from_problem_to_solution_partial CommandLine.sample exProc "0.5.0" ["x.lp"] "x.lp" ex_one
    exTexts_ok (by decide) rfl Parser.scanf 200 exLp p hp exPb hraw rfl (by decide)
    (Itm.ints_of_sums (by decide +kernel)) rfl (fun _ => Rand.updRow)
    Dispatch.exSetting Dispatch.exSetting_ok { solver := .random } ⟨_, exPb_solution⟩ exRes exInfo exInfo_ok (exProc_runs _ _) (by
      rw [if_neg (by decide +kernel)]
      exact exPb_runs) rfl
  rwa [show exProc.solName "x.lp" = "x.lp-42.sol" by decide +kernel] at this

example : (main CommandLine.sample exProc "0.5.0" ["x.lp"]).files = [("x.lp-42.sol",
    Parser.lines ["\\ objective : maximize", "\\ mode: linear",
      "\\ variables: 0/0/1 (real/general/binary)", "\\ constraints: 1/1/1 (equal/greater/less)",
      "\\ solver starts: ", "\\ solver finishes: 2020-01-01 12:00:00",
      "\\ Solution found: 11.000000", "\\ solver................: random",
      "\\ constraints...........: 5", "\\ variables.............: 6",
      "\\ duration..............: 0.010000", "\\ loop..................: 0",
      "\\ status................: solution found", "\\ value.................: 11.000000",
      "\\ other value...........: 11 ", "\\ variables.............: ", "d=0", "f=1", "a=1", "b=0",
      "c=0", "e=1"])] := by decide +kernel

/-- The messages of a command on three files, of which the first raises an exception and the second
cannot be read. -/
example : (main CommandLine.sample exProc "0.5.0" ["y.lp", "z.lp", "x.lp"]).err =
    [.failure "solver_failure", .unreadable "z.lp"] := by
  rw [(C94_each_failure_is_reported CommandLine.sample exProc "0.5.0" ["y.lp", "z.lp", "x.lp"] _ rfl
    (by decide +kernel) (by decide +kernel) (by decide +kernel) (by decide +kernel)).1]
  decide +kernel

example : ∀ f ∈ ["x.lp"], ∃ pb r i, exProc.read f = .ok (some pb) ∧
    exProc.run (CommandLine.parse CommandLine.sample ["x.lp"]).parameters
      (CommandLine.parse CommandLine.sample ["x.lp"]).optimize pb = .ok (r, i) := by
  obtain ⟨_, _, h⟩ := C94_silence_means_done CommandLine.sample exProc "0.5.0" ["x.lp"] _ rfl
    ⟨0, by decide +kernel⟩ (by decide +kernel)
  intro f hf
  have hb : (CommandLine.parse CommandLine.sample ["x.lp"]).bench = false := ex_one.solving
  rw [ex_one.files] at h
  simpa [hb] using h f hf

/-- The same command in a directory that cannot be written: its problem is solved, nothing is left and
nothing is told. -/
example : main CommandLine.sample { exProc with writable := fun _ => false } "0.5.0" ["x.lp"] =
    { files := [], err := [], ending := .exit 0 } := by decide +kernel

/-- The names of the files of two commands. -/
example : (main CommandLine.sample exProc "0.5.0" ["x.lp"]).files.map (·.1) = ["x.lp-42.sol"] ∧
    (main CommandLine.sample exProc "0.5.0" ["x.lp", "z.lp"]).files.map (·.1) =
      ["baryonyx-42.res"] := by decide +kernel

/-- A refused command. -/
example : main CommandLine.sample exProc "0.5.0" ["x.lp", "--param", "theta:7"] =
    { files := [], err := [.refused 2], ending := .exit 1 } := by
  rw [(C94_exit_status CommandLine.sample exProc "0.5.0" ["x.lp", "--param", "theta:7"]).2.1
    (by decide +kernel)]
  decide +kernel

example : (main CommandLine.sample exProc "0.5.0" ["z.lp"]).ending = .exit 0 ∧
    (main CommandLine.sample exProc "0.5.0" ["z.lp"]).err ≠ [] :=
  C94_failures_exit_zero CommandLine.sample exProc "0.5.0" ["z.lp"] (by decide +kernel)
    (.inr ⟨"z.lp", by constructor <;> decide +kernel, .inl rfl⟩)

theorem ex_many : ManyFiles (CommandLine.parse CommandLine.sample ["x.lp", "z.lp", "x.lp"]) := by
  constructor <;> decide +kernel

/-- The results of the problems of the example. -/
def exProblem (f : String) : Option (Result × Info) :=
  if f = "x.lp" then some (exRes, exInfo) else none

/-- The file of three problems, the second of which cannot be read. -/
example : (main CommandLine.sample exProc "0.5.0" ["x.lp", "z.lp", "x.lp"]).files =
    [("baryonyx-42.res", Parser.lines ["x.lp 11.000000 0.01s 11 ", "x.lp 11.000000 0.01s 11 "])] := by
  have hf : (CommandLine.parse CommandLine.sample ["x.lp", "z.lp", "x.lp"]).filenames =
    ["x.lp", "z.lp", "x.lp"] := by decide +kernel
  rw [(C95_one_line_per_problem CommandLine.sample exProc "0.5.0" ["x.lp", "z.lp", "x.lp"] _ rfl
    ex_many rfl exProblem (by
      intro f h
      rw [hf] at h
      simp only [List.mem_cons, List.not_mem_nil, or_false] at h
      rcases h with rfl | rfl | rfl
      · exact ⟨exPb, rfl, exProc_runs _ _, fun _ => by decide⟩
      · exact rfl
      · exact ⟨exPb, rfl, exProc_runs _ _, fun _ => by decide⟩)).2, hf]
  decide +kernel

/-- The exception of `y.lp` joins its line to the next. -/
example : (main CommandLine.sample exProc "0.5.0" ["y.lp", "x.lp"]).files =
    [("baryonyx-42.res", Parser.lines ["y.lp x.lp 11.000000 0.01s 11 "])] := by
  rw [C95_exception_joins_lines CommandLine.sample exProc "0.5.0" ["y.lp", "x.lp"] _ rfl
    (by constructor <;> decide +kernel) rfl "y.lp" "x.lp" (by decide +kernel) {} exPb rfl rfl
    "solver_failure" rfl exRes exInfo (exProc_runs _ _) (fun _ => by decide)]
  decide +kernel

/-- The problem `max [ 2 xxx ^ 2 ] / 2`, whose square gets a name that the file does not have. -/
def exQuad : List Char :=
  Parser.lines ["max [ 2 xxx ^ 2 ] / 2", "st", "3 x + y<=1", "binary", "x y", "end"]

/-- C93 (and C42) is false of quadratic problems: the name of a variable can hold `=`, the result is valid, and the file that is written for it cannot
be read. -/
theorem C93_quadratic_file_unreadable : ∃ pb r,
    ((Parser.makeProblem Parser.scanf 200 exQuad).toOption.bind Parser.PProblem.toRaw) = some pb ∧
    Lpcore.isValidSolution pb r = .ok true ∧ Complete r ∧ ∃ text,
      solutionText exTexts [] pb (.ok (r, exInfo)) = (text, none) ∧
      ∃ e, ResultFile.readResult (some text) = .error (.exn e) := by
  refine ⟨{ type := .maximize, objective := { qelems := [⟨1, 0, 0⟩] },
            les := [⟨"", [⟨3, 1⟩, ⟨1, 2⟩], 1, 0⟩], names := ["y<=", "x", "y"],
            values := [⟨0, 2147483647, .real⟩, ⟨0, 1, .binary⟩, ⟨0, 1, .binary⟩] },
    { status := .success, variableName := ["y<=", "x", "y"], solutions := [⟨[1, 0, 1], 1⟩] },
    by decide +kernel, by decide +kernel, ⟨rfl, rfl, _, rfl, rfl⟩, _, rfl, "bad_name", ?_⟩
  decide +kernel

end Bx.MainProgram
