import Verif.Props.Bounds
import Verif.Props.LooserFile

/-! # C142: the sections of the bounds and of the kinds of a file -/

namespace Bx.Bounds

open Spec Parser Dispatch

theorem toRaw_values {p q : PProblem} (h : q = { p with values := q.values }) :
    q.toRaw = p.toRaw.map fun raw => { raw with values := q.values } := by
  unfold PProblem.toRaw
  rw [h]
  simp only [Option.bind_eq_bind, Option.map_bind, Function.comp_def, Option.map_some]

section
variable (scan : Token → Option Params.D) (hs : ∀ t, Reserved t → scan t = none) (val : Token → Rat) (ival : Token → Int)
  {f g : File} (hg : g = { f with bounds := g.bounds, binary := g.binary, general := g.general })
  (okf : FileOk scan val ival f) (okg : FileOk scan val ival g)
  (text text' : List Char) (h : Denotes text f.tokens) (h' : Denotes text' g.tokens)
  (fuel : Nat) (lf : f.tokens.length < fuel) (lg : g.tokens.length < fuel)
include hg

theorem file_names : g.names = f.names := by rw [hg]; rfl

theorem file_values : g.problem val ival = { f.problem val ival with values := (g.problem val ival).values } := by
  have hn := file_names hg
  have e1 : g.type = f.type := by rw [hg]
  have e2 : g.linear = f.linear := by rw [hg]; rfl
  have e3 : g.quads = f.quads := by rw [hg]; rfl
  have e4 : g.cons = f.cons := by rw [hg]
  unfold File.problem File.constrs
  simp only [e1, e2, e3, e4, hn]

include hs okf okg h h' lf lg

/-- C142 for a file: two files that differ only by the sections of the bounds and of the kinds, whatever their layout, are
read as two problems that differ only by the bounds and the kinds of the variables. -/
theorem C142_file :
    ∃ p p', makeProblem scan fuel text = .ok p ∧ makeProblem scan fuel text' = .ok p' ∧
      (p.toRaw = none ∧ p'.toRaw = none ∨ ∃ raw raw', p.toRaw = some raw ∧ p'.toRaw = some raw' ∧ OtherBounds raw raw' ∧
        raw.values = f.names.map (f.varValue ival) ∧ raw'.values = f.names.map (g.varValue ival)) := by
  refine ⟨_, _, C68_read_as_written_partial scan hs val ival f okf text h fuel lf,
    C68_read_as_written_partial scan hs val ival g okg text' h' fuel lg, ?_⟩
  rw [toRaw_values (file_values val ival hg)]
  cases hr : (f.problem val ival).toRaw with
  | none => exact .inl ⟨rfl, rfl⟩
  | some raw =>
    have hv : raw.values = f.names.map (f.varValue ival) := by
      unfold PProblem.toRaw at hr
      simp only [Option.bind_eq_bind, Option.bind_eq_some_iff, Option.some.injEq] at hr
      obtain ⟨es, h1, qs, h2, v, h3, rfl⟩ := hr
      rfl
    have hv' : (g.problem val ival).values = f.names.map (g.varValue ival) := by
      show g.names.map _ = _
      rw [file_names hg]
    refine .inr ⟨_, _, rfl, rfl, ⟨rfl, ?_⟩, hv, hv'⟩
    rw [hv]
    show (g.problem val ival).values.length = _
    rw [hv', List.length_map, List.length_map]

/-- C142 from the text to the result of `solve`, without preprocessing. -/
theorem C142_file_solve {ρ : Type} (upd : Engine → Itm.Slv → ρ → Nat → Assign → Outcome Assign) (w : World ρ) (c : Ctx)
    (hc : c.preprocessing = false) :
    ∃ p p', makeProblem scan fuel text = .ok p ∧ makeProblem scan fuel text' = .ok p' ∧
      p'.toRaw.map (Dispatch.solve (execute upd w) (some c)) = p.toRaw.map (Dispatch.solve (execute upd w) (some c)) := by
  obtain ⟨p, p', h1, h2, ⟨h3, h4⟩ | ⟨raw, raw', h3, h4, h5, -⟩⟩ :=
    C142_file scan hs val ival hg okf okg text text' h h' fuel lf lg
  · exact ⟨p, p', h1, h2, by rw [h3, h4]⟩
  · refine ⟨p, p', h1, h2, ?_⟩
    rw [h3, h4, Option.map_some, Option.map_some, C142_solve upd w c hc h5]

/-- C142 from the text to the result of `optimize`, without preprocessing, in all the modes. -/
theorem C142_file_optimize {ρ : Type} (upd : Engine → Itm.Slv → ρ → Nat → Assign → Outcome Assign) (s : Setting ρ) (c : Ctx)
    (hc : c.preprocessing = false) :
    ∃ p p', makeProblem scan fuel text = .ok p ∧ makeProblem scan fuel text' = .ok p' ∧
      p'.toRaw.map (Dispatch.optimize (execute upd s.untuned) (s.tuners upd c) (some c)) =
        p.toRaw.map (Dispatch.optimize (execute upd s.untuned) (s.tuners upd c) (some c)) := by
  obtain ⟨p, p', h1, h2, ⟨h3, h4⟩ | ⟨raw, raw', h3, h4, h5, -⟩⟩ :=
    C142_file scan hs val ival hg okf okg text text' h h' fuel lf lg
  · exact ⟨p, p', h1, h2, by rw [h3, h4]⟩
  · refine ⟨p, p', h1, h2, ?_⟩
    rw [h3, h4, Option.map_some, Option.map_some, C142_optimize upd s c hc h5]

/-- C142 from the text to the result of `solve`, with or without preprocessing, when the two files fix the same variables. -/
theorem C142_file_fixed_solve (hv : ∀ x ∈ f.names, SameFixed (f.varValue ival x) (g.varValue ival x)) {ρ : Type}
    (upd : Engine → Itm.Slv → ρ → Nat → Assign → Outcome Assign) (w : World ρ) (c : Option Ctx) :
    ∃ p p', makeProblem scan fuel text = .ok p ∧ makeProblem scan fuel text' = .ok p' ∧
      p'.toRaw.map (Dispatch.solve (execute upd w) c) = p.toRaw.map (Dispatch.solve (execute upd w) c) := by
  obtain ⟨p, p', h1, h2, ⟨h3, h4⟩ | ⟨raw, raw', h3, h4, h5, h6, h7⟩⟩ :=
    C142_file scan hs val ival hg okf okg text text' h h' fuel lf lg
  · exact ⟨p, p', h1, h2, by rw [h3, h4]⟩
  · refine ⟨p, p', h1, h2, ?_⟩
    have : SameFixedRaw raw raw' := by
      refine ⟨h5.rest, ?_⟩
      rw [h6, h7, List.forall₂_map_left_iff, List.forall₂_map_right_iff, List.forall₂_same]
      exact hv
    rw [h3, h4, Option.map_some, Option.map_some, C142_fixed_solve upd w c this]

/-- C142 from the text to the result of `optimize`, with or without preprocessing, in all the modes, when the two files fix
the same variables. -/
theorem C142_file_fixed_optimize (hv : ∀ x ∈ f.names, SameFixed (f.varValue ival x) (g.varValue ival x)) {ρ : Type}
    (upd : Engine → Itm.Slv → ρ → Nat → Assign → Outcome Assign) (s : Setting ρ) (c : Ctx) :
    ∃ p p', makeProblem scan fuel text = .ok p ∧ makeProblem scan fuel text' = .ok p' ∧
      p'.toRaw.map (Dispatch.optimize (execute upd s.untuned) (s.tuners upd c) (some c)) =
        p.toRaw.map (Dispatch.optimize (execute upd s.untuned) (s.tuners upd c) (some c)) := by
  obtain ⟨p, p', h1, h2, ⟨h3, h4⟩ | ⟨raw, raw', h3, h4, h5, h6, h7⟩⟩ :=
    C142_file scan hs val ival hg okf okg text text' h h' fuel lf lg
  · exact ⟨p, p', h1, h2, by rw [h3, h4]⟩
  · refine ⟨p, p', h1, h2, ?_⟩
    have : SameFixedRaw raw raw' := by
      refine ⟨h5.rest, ?_⟩
      rw [h6, h7, List.forall₂_map_left_iff, List.forall₂_map_right_iff, List.forall₂_same]
      exact hv
    rw [h3, h4, Option.map_some, Option.map_some, C142_fixed_optimize upd s c this]

/-- C142 from the text to the result of `optimize` with any number of workers, with or without preprocessing, when the two
files fix the same variables. -/
theorem C142_file_fixed_workers (hv : ∀ x ∈ f.names, SameFixed (f.varValue ival x) (g.varValue ival x)) {ρ : Type}
    (upd : Itm.Slv → ρ → Nat → Assign → Outcome Assign) (sorts : Merge.Sorts) (po : Merge.Order) (pre : Bool)
    (thread : Int) (hardware : Nat) (ch : Optimizer.Crew ρ) (q : Itm.Params) (st : Optimizer.StorageType) :
    ∃ p p', makeProblem scan fuel text = .ok p ∧ makeProblem scan fuel text' = .ok p' ∧
      p'.toRaw.map (Optimizer.crewOptimize upd sorts po pre thread hardware ch q st) =
        p.toRaw.map (Optimizer.crewOptimize upd sorts po pre thread hardware ch q st) := by
  obtain ⟨p, p', h1, h2, ⟨h3, h4⟩ | ⟨raw, raw', h3, h4, h5, h6, h7⟩⟩ :=
    C142_file scan hs val ival hg okf okg text text' h h' fuel lf lg
  · exact ⟨p, p', h1, h2, by rw [h3, h4]⟩
  · refine ⟨p, p', h1, h2, ?_⟩
    have : SameFixedRaw raw raw' := by
      refine ⟨h5.rest, ?_⟩
      rw [h6, h7, List.forall₂_map_left_iff, List.forall₂_map_right_iff, List.forall₂_same]
      exact hv
    rw [h3, h4, Option.map_some, Option.map_some, C142_fixed_workers upd sorts po pre thread hardware ch q st this]

end

/-! ## Example -/

/-- `exFile` without its sections of bounds and kinds. -/
def exBare : File := { exFile with bounds := none, binary := none, general := none }

/-- The hypotheses hold of it; the kind of a variable is not the same, and no variable is fixed. -/
example : FileOk scanf scanVal scanInt exFile ∧ FileOk scanf scanVal scanInt exBare ∧
    (∃ x ∈ exFile.names, exFile.varValue scanInt x ≠ exBare.varValue scanInt x) ∧
    ∀ x ∈ exFile.names, SameFixed (exFile.varValue scanInt x) (exBare.varValue scanInt x) := by
  unfold SameFixed
  refine ⟨by decide +kernel, by decide +kernel, by decide +kernel, by decide +kernel⟩

end Bx.Bounds
