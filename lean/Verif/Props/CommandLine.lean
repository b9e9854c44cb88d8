import Verif.Proofs.CommandLine2

/-!
# C61, C65, C66: the command line

`assignParameter c p name value` is the effect of `--param name:value` on the
parameters `p`, with the status of the program; `parse c args` is the result of the
whole command line.  `c` are the conversions from texts to numbers.
-/

namespace Bx.CommandLine

open Params

/-! ## C61 -/

/-- C61: a parameter that is not accepted changes nothing. -/
theorem C61_rejected_unchanged (c : Conv) (p : SolverParams) (name value : String)
    (h : (assignParameter c p name value).2 ≠ .success) :
    (assignParameter c p name value).1 = p :=
  assign_unchanged h rfl

/-- C61 (partial): an accepted parameter is a documented one, its field holds the value
of the text, in the documented range, and nothing else changes.  Missing: names of two
characters and texts whose value is NaN, for which the claim is false
(`C61_two_letter_name`, `C61_nan_time_limit`), and the value 1 of the parameters kappa,
which the help message excludes (`C61_kappa_one`). -/
theorem C61_accepted_partial (c : Conv) (p p' : SolverParams) (name value : String)
    (h2 : name.toList.length ≠ 2) (hn : c.dbl value ≠ some .nan)
    (h : assignParameter c p name value = (p', .success)) : Stored c p name value p' :=
  assign_ok (fun e => (isEqualShort_iff h2).mp e) hn h

/-- C61: conversely, a refused parameter is not documented, or the text has no value in
the documented range. -/
theorem C61_refused (c : Conv) (hc : c.Ok) (p p' : SolverParams) (name value : String)
    (st : CStatus) (h2 : name.toList.length ≠ 2) (hs : st ≠ .success)
    (h : assignParameter c p name value = (p', st)) : Refused c p name value p' st :=
  assign_refused hc (fun e => (isEqualShort_iff h2).mp e) hs h

/-- Every parameter is in its documented range. -/
def AllInRange (p : SolverParams) : Prop := ∀ f ∈ documented, f.range (f.read p)

theorem allInRange_default : AllInRange {} := by
  intro f hf
  have b : ∀ q : Rat, 0 ≤ q → q ≤ 1 → Between 0 1 (.fin q) := fun q h1 h2 => ⟨q, rfl, h1, h2⟩
  have o : ∀ q : Rat, 0 < q → Positive (.fin q) := fun q h => Or.inr ⟨q, rfl, h⟩
  simp only [documented, List.mem_cons, List.not_mem_nil, or_false] at hf
  rcases hf with rfl | rfl | rfl | rfl | rfl | rfl | rfl | rfl | rfl | rfl | rfl | rfl | rfl |
    rfl | rfl | rfl | rfl | rfl | rfl | rfl | rfl | rfl | rfl | rfl | rfl | rfl | rfl | rfl |
    rfl | rfl | rfl | rfl | rfl | rfl | rfl <;>
  first
  | exact b _ (by norm_num) (by norm_num)
  | exact o _ (by norm_num)
  | exact Or.inl rfl
  | exact ⟨_, rfl, 1, rfl, by norm_num, by norm_num⟩
  | exact ⟨_, rfl, by norm_num⟩
  | (simp only [atLeast]; decide)
  | (simp only [choice]; decide)
  | simp

theorem allInRange_assign {c : Conv} (hc : ∀ s, c.dbl s ≠ some .nan) {p : SolverParams}
    (name value : String) (h : AllInRange p) : AllInRange (assignParameter c p name value).1 := by
  by_cases hs : (assignParameter c p name value).2 = .success
  · by_cases hl : isEqualShort name "limit" 'l' = true ∧ name ≠ "limit"
    · unfold assignParameter at hs ⊢
      rw [if_pos hl.1] at hs ⊢
      obtain ⟨a, ha, he⟩ := store_ok (p' := (store (assignI (c.long value) (-1) longMax) p
        (fun v => { p with limit := v }) .limitError).1) (by decide) (Prod.ext rfl hs)
      rw [he]
      obtain ⟨_, h1, _⟩ := assignI_iff.mp ha
      intro f hf
      have := h f hf
      simp only [documented, List.mem_cons, List.not_mem_nil, or_false] at hf
      rcases hf with rfl | rfl | rfl | rfl | rfl | rfl | rfl | rfl | rfl | rfl | rfl | rfl | rfl |
        rfl | rfl | rfl | rfl | rfl | rfl | rfl | rfl | rfl | rfl | rfl | rfl | rfl | rfl | rfl |
        rfl | rfl | rfl | rfl | rfl | rfl | rfl
      · exact h1
      all_goals exact this
    · have hl' : isEqualShort name "limit" 'l' = true → name = "limit" := by
        intro e
        by_contra hne
        exact hl ⟨e, hne⟩
      obtain ⟨_, h1, h2, _⟩ := assign_ok hl' (hc value)
        (show assignParameter c p name value = (_, .success) from Prod.ext rfl hs)
      intro f hf
      by_cases he : f.name = name
      · exact (h1 f hf he).2
      · rw [h2 f hf he]; exact h f hf
  · rw [C61_rejected_unchanged c p name value hs]; exact h

/-- The state after a turn of the loop. -/
def Step.main : Step → Main
  | .next m _ => m
  | .stop m => m

theorem allInRange_last {c : Conv} (hc : ∀ s, c.dbl s ≠ some .nan) {m : Main} (arg : String)
    (rest : List String) (h : AllInRange m.parameters) :
    AllInRange (lastOptions c m arg rest).main.parameters := by
  have same : ∀ p : SolverParams, (∀ f ∈ documented, f.read p = f.read m.parameters) →
      AllInRange p := fun p hp f hf => by rw [hp f hf]; exact h f hf
  unfold lastOptions
  split
  · exact h
  · split
    · rename_i v skip _
      split
      · exact h
      · simp only
        have hr := allInRange_assign hc (splitArgument v).1 (splitArgument v).2 h
        split <;> exact hr
    · split
      · exact same _ (by simp [documented, Step.main])
      · split
        · exact same _ (by simp [documented, Step.main])
        · exact h

theorem allInRange_verbose {c : Conv} (hc : ∀ s, c.dbl s ≠ some .nan) {m : Main} (arg : String)
    (rest : List String) (h : AllInRange m.parameters) :
    AllInRange (verboseOption c m arg rest).main.parameters := by
  unfold verboseOption
  split
  · split
    · exact allInRange_last hc arg rest h
    · exact h
  · exact allInRange_last hc arg rest h

theorem allInRange_step {c : Conv} (hc : ∀ s, c.dbl s ≠ some .nan) {m : Main} (k : Nat)
    (arg : String) (rest : List String) (h : AllInRange m.parameters) :
    AllInRange (step c m k arg rest).main.parameters := by
  have same : ∀ p : SolverParams, (∀ f ∈ documented, f.read p = f.read m.parameters) →
      AllInRange p := fun p hp f hf => by rw [hp f hf]; exact h f hf
  unfold step
  simp only
  split
  · exact h
  · split
    · exact h
    · split
      · exact h
      · split
        · exact h
        · split
          · exact same _ (by simp [documented, Step.main])
          · split
            · exact same _ (by simp [documented, Step.main])
            · exact allInRange_verbose hc arg rest h

/-- C61 (partial): whatever the command line, all the parameters are in their ranges at
the end, even after an error.  Missing: texts whose value is NaN
(`C61_nan_time_limit`). -/
theorem C61_command_line_in_range_partial (c : Conv) (hc : ∀ s, c.dbl s ≠ some .nan)
    (args : List String) : AllInRange (parse c args).parameters := by
  have key : ∀ n (m : Main) k args, AllInRange m.parameters →
      AllInRange (loop c n m k args).parameters := by
    intro n
    induction n with
    | zero => exact fun m k args h => h
    | succ n ih =>
      intro m k args h
      cases args with
      | nil => exact h
      | cons arg rest =>
        unfold loop
        have hs := allInRange_step hc k arg rest h
        cases he : step c m k arg rest with
        | stop m' => rw [he] at hs; exact hs
        | next m' skip => rw [he] at hs; exact ih _ _ _ hs
  exact key _ _ _ _ allInRange_default

/-- Conversions for the examples: a few texts. -/
def sample : Conv where
  dbl s := if s = "0.25" then some (.fin (1 / 4)) else if s = "1" then some (.fin 1)
    else if s = "nan" then some .nan else none
  int s := if s = "7" then some 7 else if s = "-7" then some (-7) else none
  long s := if s = "7" then some 7 else none

theorem sample_ok : sample.Ok where
  int := by
    intro s n h
    simp only [sample] at h
    split at h
    · rw [← Option.some.inj h]; decide
    · split at h
      · rw [← Option.some.inj h]; decide
      · exact absurd h (by simp)
  long := by
    intro s n h
    simp only [sample] at h
    split at h
    · rw [← Option.some.inj h]; decide
    · exact absurd h (by simp)
  dbl := by
    intro s q h
    simp only [sample] at h
    split at h
    · rw [← D.fin.inj (Option.some.inj h)]; decide +kernel
    · split at h
      · rw [← D.fin.inj (Option.some.inj h)]; decide +kernel
      · split at h <;> exact absurd h (by simp)

/-- Refutation: any name of two characters that ends with `l` sets the loop limit. -/
theorem C61_two_letter_name :
    assignParameter sample {} "al" "7" = ({ limit := 7 }, .success) ∧
    ∀ f ∈ documented, f.name ≠ "al" := by
  refine ⟨by decide +kernel, ?_⟩
  simp [documented]

/-- Refutation: a time limit that is not a number is stored. -/
theorem C61_nan_time_limit :
    assignParameter sample {} "time-limit" "nan" = ({ timeLimit := .nan }, .success) ∧
    ¬ AllInRange { timeLimit := .nan } := by
  refine ⟨by decide +kernel, fun h => ?_⟩
  have h1 := h _ (List.mem_cons_of_mem _ List.mem_cons_self)
  rcases h1 with h1 | h1 | ⟨q, h1, _⟩
  · simp at h1
  · simp at h1
  · simp at h1

/-- Refutation: the value 1 is accepted for kappa, the help message says `[0, 1[`. -/
theorem C61_kappa_one :
    assignParameter sample {} "kappa-min" "1" = ({ kappaMin := .fin 1 }, .success) ∧
    assignParameter sample {} "kappa-step" "1" = ({ kappaStep := .fin 1 }, .success) ∧
    assignParameter sample {} "kappa-max" "1" = ({ kappaMax := .fin 1 }, .success) := by
  refine ⟨?_, ?_, ?_⟩ <;> decide +kernel

example : Stored sample {} "theta" "0.25" { theta := .fin (1 / 4) } :=
  C61_accepted_partial _ _ _ _ _ (by decide) (by decide +kernel) (by decide +kernel)

example : Refused sample {} "theta" "7" {} .thetaError :=
  C61_refused _ sample_ok _ _ _ _ _ (by decide) (by decide) (by decide +kernel)

/-! ## C65 -/

/-- C65 (partial): a command line made of file names, of flags, of options with a value
written in any of the five ways, and of parameters that are accepted does what these
items ask for, in their order, and nothing else; only the record of the last argument
read is left free.  Missing: `--verbose` and `--check`, for which the claim is false
(`C65_verbose_becomes_a_file`, `C65_check_has_no_effect`). -/
theorem C65_options_take_effect_partial (c : Conv) (items : List Item) (m : Main)
    (hv : ∀ i ∈ items, i.Valid) (hm : AllAsk c {} items m) :
    ∃ k, parse c (items.flatMap Item.args) = { m with parseArg := k } :=
  loop_items hv hm _ _ (Nat.le_refl _)

/-- C65: the command line does not stop with an error when its parameters are
accepted. -/
theorem C65_no_error_partial (c : Conv) (items : List Item) (m : Main)
    (hv : ∀ i ∈ items, i.Valid) (hm : AllAsk c {} items m) :
    (parse c (items.flatMap Item.args)).status = .success := by
  obtain ⟨k, hk⟩ := C65_options_take_effect_partial c items m hv hm
  rw [hk]
  have key : ∀ {l : List Item} {m m' : Main}, AllAsk c m l m' → m'.status = m.status := by
    intro l m m' h
    induction h with
    | nil m => rfl
    | @cons m m1 m2 i l hi _ ih =>
      rw [ih]
      cases i with
      | param n v sep f =>
        obtain ⟨p, rfl, _⟩ := hi
        rfl
      | _ => (have hi : m1 = _ := hi); rw [hi]
  exact key hm

/-- Refutation: `--verbose 3 x.lp` makes files of its three arguments, whatever the
conversions, provided 3 is read as a number. -/
theorem C65_verbose_becomes_a_file (c : Conv) (h : c.int "3" = some 3) :
    (parse c ["--verbose", "3", "x.lp"]).filenames = ["--verbose", "3", "x.lp"] ∧
    (parse c ["--verbose=3", "x.lp"]).filenames = ["--verbose=3", "x.lp"] := by
  have e1 : getParam "--verbose" ["3", "x.lp"] "--verbose" "-v" = some ("3", true) := by decide
  have e2 : getParam "--verbose=3" ["x.lp"] "--verbose" "-v" = some ("3", false) := by decide
  have s1 : step c {} 1 "--verbose" ["3", "x.lp"] =
      .next { verbose := 3, parseArg := 1, filenames := ["--verbose"] } false := by
    rw [step_flags (by decide) (by decide) (by decide) (by decide)]
    unfold verboseOption
    rw [e1]
    simp only [h]
    rfl
  have s2 : step c {} 1 "--verbose=3" ["x.lp"] =
      .next { verbose := 3, parseArg := 1, filenames := ["--verbose=3"] } false := by
    rw [step_flags (by decide) (by decide) (by decide) (by decide)]
    unfold verboseOption
    rw [e2]
    simp only [h]
    rfl
  constructor
  · unfold parse loop
    simp only [List.length_cons, List.length_nil]
    rw [s1]
    rfl
  · unfold parse loop
    simp only [List.length_cons, List.length_nil]
    rw [s2]
    rfl

/-- Refutation: no command line sets `check`, the only thing that starts the
verification of a solution (`app/src/main.cpp:1227-1239`). -/
theorem C65_check_has_no_effect (c : Conv) (args : List String) : (parse c args).check = false := by
  have hlast : ∀ (m : Main) arg rest, m.check = false →
      (lastOptions c m arg rest).main.check = false := by
    intro m arg rest h
    unfold lastOptions
    split
    · exact h
    · split
      · split
        · exact h
        · simp only; split <;> exact h
      · split
        · exact h
        · split <;> exact h
  have hverb : ∀ (m : Main) arg rest, m.check = false →
      (verboseOption c m arg rest).main.check = false := by
    intro m arg rest h
    unfold verboseOption
    split
    · split
      · exact hlast _ _ _ h
      · exact h
    · exact hlast _ _ _ h
  have hstep : ∀ (m : Main) k arg rest, m.check = false →
      (step c m k arg rest).main.check = false := by
    intro m k arg rest h
    unfold step
    simp only
    split
    · exact h
    · split
      · exact h
      · split
        · exact h
        · split
          · exact h
          · split
            · exact h
            · split
              · exact h
              · exact hverb _ _ _ h
  have key : ∀ n (m : Main) k args, m.check = false → (loop c n m k args).check = false := by
    intro n
    induction n with
    | zero => exact fun m k args h => h
    | succ n ih =>
      intro m k args h
      cases args with
      | nil => exact h
      | cons arg rest =>
        unfold loop
        have hs := hstep m k arg rest h
        cases he : step c m k arg rest with
        | stop m' => rw [he] at hs; exact hs
        | next m' skip => rw [he] at hs; exact ih _ _ _ hs
  exact key _ _ _ _ rfl

/-- The hypotheses are met by a command line with most of the items. -/
example : ∃ k, parse sample ["-q", "--param", "theta:0.25", "x.lp", "-pseed=7", "--auto=branch",
      "-b", "out.csv", "y.lp"] =
    { parameters := { theta := .fin (1 / 4), seed := 7, mode := 4 }, quiet := true,
      filenames := ["x.lp", "y.lp"], bench := true, benchName := "out.csv", parseArg := k } := by
  refine C65_options_take_effect_partial sample
    [.quiet true, .param "theta" "0.25" ':' .next, .file "x.lp", .param "seed" "7" '=' .short,
      .auto "branch" .equal, .bench "out.csv" .shortNext, .file "y.lp"]
    { parameters := { theta := .fin (1 / 4), seed := 7, mode := 4 }, quiet := true,
      filenames := ["x.lp", "y.lp"], bench := true, benchName := "out.csv" } ?_ ?_
  · intro i hi
    simp only [List.mem_cons, List.not_mem_nil, or_false] at hi
    rcases hi with rfl | rfl | rfl | rfl | rfl | rfl | rfl
    · trivial
    · exact ⟨by decide, by decide, Or.inl rfl, by decide, by decide⟩
    · show _ ≠ _; decide
    · exact ⟨by decide, by decide, Or.inr rfl, by decide, by decide⟩
    · show _ ∈ _; decide
    · intro h; exact absurd h (by decide)
    · show _ ≠ _; decide
  · refine .cons rfl (.cons ⟨{ theta := .fin (1 / 4) }, rfl, by decide +kernel⟩ (.cons rfl
      (.cons ⟨{ theta := .fin (1 / 4), seed := 7 }, rfl, by decide +kernel⟩
        (.cons rfl (.cons rfl (.cons rfl ?_))))))
    exact .nil _

/-! ## C66 -/

/-- C66 (partial): the status of a refused parameter is the one of this parameter.
Missing: the text shown to the user, which is never the right one
(`C66_wrong_name_in_every_message`). -/
theorem C66_status_of_the_parameter_partial (c : Conv) (hc : c.Ok) (p : SolverParams)
    (name value : String) (h2 : name.toList.length ≠ 2)
    (h : (assignParameter c p name value).2 ≠ .success) :
    (name, (assignParameter c p name value).2) ∈ refusal ∨
      ((assignParameter c p name value).2 = .unknown ∧ ∀ f ∈ documented, f.name ≠ name) := by
  rcases (C61_refused c hc p _ name value _ h2 h rfl).2 with h | h
  · exact Or.inr h
  · exact Or.inl h.1

/-- Refutation: no refused parameter is reported under its own name. -/
theorem C66_wrong_name_in_every_message :
    ∀ x ∈ refusal, statusString x.2 ≠ .ok (messageName x.1) := by
  decide +kernel

/-- Refutation: the message for a refused `seed` is read past the end of the table. -/
theorem C66_seed_message_aborts :
    statusString (assignParameter sample {} "seed" "-7").2 =
      .error (.contract "x < size(command_line_status_string)") := by
  decide +kernel

/-- The message for a refused loop limit is about the time limit. -/
example : statusString (assignParameter sample {} "limit" "many").2 = .ok "time_limit" := by
  decide +kernel

example : ("theta", CStatus.thetaError) ∈ refusal ∨
    (CStatus.thetaError = .unknown ∧ ∀ f ∈ documented, f.name ≠ "theta") := by
  have h := C66_status_of_the_parameter_partial sample sample_ok {} "theta" "7" (by decide)
    (by decide +kernel)
  rwa [show (assignParameter sample {} "theta" "7").2 = .thetaError by decide +kernel] at h

end Bx.CommandLine
