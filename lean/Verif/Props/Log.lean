import Verif.Model.Log

/-!
# C116: the verbosity decides which messages are printed
-/

namespace Bx.Log

/-- C116.  In a build with messages, a message is printed exactly when its level, from 0 for an
emergency to 7 for debugging, is at most the verbosity.  An emergency is always printed; a message for
debugging needs a build for debugging as well. -/
theorem C116_printed_iff_level (b : Build) (hb : b.log = true) (v : Int) (m : MessageType) :
    (∃ s, printed b (convertVerboseLevel v) m = some s) ↔
      (m.toInt ≤ v ∨ m = .emerg) ∧ (m = .debug → b.debug = true) := by
  unfold convertVerboseLevel
  split_ifs <;> cases m <;> simp [printed, isLoggable, hb, MessageType.toInt] <;> omega

/-- C116.  A message that is printed is on the standard error up to the level 4, a warning, and on the
standard output above. -/
theorem C116_stream (b : Build) (p m : MessageType) (s : Stream) (h : printed b p m = some s) :
    s = if m.toInt ≤ 4 then .err else .out := by
  cases m <;> simp only [printed, Option.ite_none_right_eq_some] at h <;>
    simpa [MessageType.toInt] using (h.2).symm

/-- C116.  A verbosity that is not between 0 and 7 is as the nearest of them. -/
theorem C116_verbosity_is_clamped (v : Int) :
    (convertVerboseLevel v).toInt = if v < 0 then 0 else if 7 < v then 7 else v := by
  unfold convertVerboseLevel
  split_ifs <;> simp only [MessageType.toInt] <;> omega

/-- C116.  A build without messages prints none. -/
theorem C116_build_without_log (b : Build) (hb : b.log = false) (p m : MessageType) :
    printed b p m = none := by
  cases m <;> simp [printed, hb]

/-- The messages are those of the library. -/
def OfLibrary (l : List Said) : Prop := ∀ x ∈ l, ∃ t s, x = .library t s

theorem onStream_append (b : Build) (p : MessageType) (s : Stream) (l l' : List Said) :
    onStream b p s (l ++ l') = onStream b p s l ++ onStream b p s l' := by
  induction l with
  | nil => simp [onStream]
  | cons m l ih => simp [onStream, ih, String.append_assoc]

theorem onStream_library {b : Build} {p : MessageType} {s : Stream} {l : List Said}
    (hl : OfLibrary l) (h : ∀ m, printed b p m ≠ some s) : onStream b p s l = "" := by
  induction l with
  | nil => rfl
  | cons m l ih =>
    obtain ⟨t, x, rfl⟩ := hl m (by simp)
    simp [onStream, Said.text, h t, ih fun y hy => hl y (by simp [hy])]

/-- C116, part.  With `--quiet`, whatever the other options, the library prints nothing on the
standard output, and the only messages that it prints on the standard error have a level of at most 3,
an error. -/
theorem C116_quiet_partial (b : Build) (m : CommandLine.Main) (hq : m.quiet = true) :
    (∀ l, OfLibrary l → onStream b (convertVerboseLevel (verbosity m)) .out l = "") ∧
    ∀ t s, printed b (convertVerboseLevel (verbosity m)) t = some s → s = .err ∧ t.toInt ≤ 3 := by
  have hv : verbosity m = 3 := by simp [verbosity, hq]
  have h : ∀ t s, printed b (convertVerboseLevel (verbosity m)) t = some s → s = .err ∧ t.toInt ≤ 3 := by
    intro t s
    rw [hv]
    intro h
    refine ⟨?_, ?_⟩
    · rw [C116_stream b _ t s h]
      cases t <;> simp [printed, convertVerboseLevel, isLoggable, MessageType.toInt] at h ⊢
    · cases t <;> simp [printed, convertVerboseLevel, isLoggable, MessageType.toInt] at h ⊢
  exact ⟨fun l hl => onStream_library hl fun t ht => by simpa using (h t .out ht).1, h⟩

/-- C116 does not hold of `--quiet`, which the help says to remove any message: the program prints the
start and the end of the run, the same text for every build and every verbosity that keeps the library
silent, and the text is not empty. -/
theorem C116_quiet_is_not_silent (b : Build) (m : CommandLine.Main) (hq : m.quiet = true)
    (t : Messages.Texts) (file start : String) (loop : Int) (d : Rat) (before prepare during : List Said)
    (hb : OfLibrary before) (hp : OfLibrary prepare) (hd : OfLibrary during) (r : Result) :
    onStream b (convertVerboseLevel (verbosity m)) .out
        (runOf t file start loop d before prepare during r) =
      "  - output file: " ++ file ++ "\n" ++ "Solver starts\n" ++ start ++ Messages.finished t loop d r ∧
    onStream b (convertVerboseLevel (verbosity m)) .out
        (runOf t file start loop d before prepare during r) ≠ "" := by
  have h : onStream b (convertVerboseLevel (verbosity m)) .out
        (runOf t file start loop d before prepare during r) =
      "  - output file: " ++ file ++ "\n" ++ "Solver starts\n" ++ start ++ Messages.finished t loop d r := by
    unfold runOf
    simp only [onStream_append, (C116_quiet_partial b m hq).1 _ hb, (C116_quiet_partial b m hq).1 _ hp,
      (C116_quiet_partial b m hq).1 _ hd,
      onStream, Said.text, if_true, String.empty_append, String.append_empty]
    simp only [← String.append_assoc]
  refine ⟨h, ?_⟩
  rw [h]
  intro e
  have := congrArg (fun s => s.toList.length) e
  simp only [String.toList_append, List.length_append] at this
  have h1 : "  - output file: ".toList.length = 17 := by decide
  have h0 : "".toList.length = 0 := by decide
  omega

/-- C116 does not hold in the modes that tune parameters or branch, which report their progress with
the level 5: whatever the verbosity, nothing of it is printed. -/
theorem C116_tuners_are_silent (b : Build) (v : Int) :
    printed b (tunerPriority (convertVerboseLevel v)) .notice = none := by
  simp [printed, tunerPriority, isLoggable, MessageType.toInt]

/-- C116 does not hold in these modes for a verbosity under 4 either: a warning that the verbosity
excludes is printed. -/
theorem C116_tuners_print_warnings (b : Build) (hb : b.log = true) (v : Int) (hv : v < 4) :
    printed b (convertVerboseLevel v) .warning = none ∧
    printed b (tunerPriority (convertVerboseLevel v)) .warning = some .err := by
  have h := (C116_printed_iff_level b hb v .warning).not.2 (by simp [MessageType.toInt]; omega)
  refine ⟨Option.eq_none_iff_forall_ne_some.2 fun s hs => h ⟨s, hs⟩, ?_⟩
  simp [printed, tunerPriority, isLoggable, MessageType.toInt, hb]

/-! ## Examples -/

/-- The hypotheses of `C116_printed_iff_level` and `C116_stream` are met: the default verbosity prints
an information on the standard output, the verbosity 4 of the tests does not. -/
example : printed ⟨true, false⟩ (convertVerboseLevel 6) .info = some .out ∧
    printed ⟨true, false⟩ (convertVerboseLevel 4) .info = none ∧
    printed ⟨true, false⟩ (convertVerboseLevel 4) .warning = some .err ∧
    printed ⟨true, false⟩ (convertVerboseLevel 9) .debug = none := by decide

/-- The hypotheses of `C116_quiet_is_not_silent` are met by the command line `--quiet x.lp`. -/
example (c : CommandLine.Conv) : (CommandLine.parse c ["--quiet", "x.lp"]).quiet = true ∧
    (CommandLine.parse c ["--quiet", "x.lp"]).filenames = ["x.lp"] := by
  exact ⟨rfl, rfl⟩

example : OfLibrary [.library .info "problem reads from file `x.lp'\n", .library .err "no\n"] ∧
    onStream ⟨true, true⟩ (convertVerboseLevel 3) .out
      [.library .info "problem reads from file `x.lp'\n", .library .err "no\n"] = "" ∧
    onStream ⟨true, true⟩ (convertVerboseLevel 6) .out
      [.library .info "problem reads from file `x.lp'\n", .library .err "no\n"] =
        "problem reads from file `x.lp'\n" :=
  ⟨fun x hx => by
    simp only [List.mem_cons, List.not_mem_nil, or_false] at hx
    rcases hx with rfl | rfl <;> exact ⟨_, _, rfl⟩, by decide +kernel, by decide +kernel⟩

end Bx.Log
