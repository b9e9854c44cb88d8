import Verif.Proofs.TwiceRun
import Verif.Props.Dispatch

/-!
# C138: a constraint written several times counts once

The same problem where constraints already written are written again, under other labels, the constraints being numbered
as one likes as long as their order is kept.
-/

namespace Bx.Twice

open Spec Dispatch Itm

variable {φ : Int → Int} {ρ : Type}

/-- C138 for the preprocessing: it stops for the same reason, or the reduced problems have the same variables, the same
values found, the same objective and the same constraints, some of them written several times. -/
theorem C138_preprocess {raw raw' : RawProblem} (h : RepeatsRaw φ raw raw') :
    (∃ e, Preprocess.preprocess raw = .error e ∧ Preprocess.preprocess raw' = .error e) ∨
    ∃ pb pb', Preprocess.preprocess raw = .ok pb ∧ Preprocess.preprocess raw' = .ok pb' ∧
      pb' = { pb with eqs := pb'.eqs, ges := pb'.ges, les := pb'.les } ∧
      Repeats φ pb.eqs pb'.eqs ∧ Repeats φ pb.ges pb'.ges ∧ Repeats φ pb.les pb'.les := by
  rcases prepared_both true h with h1 | ⟨pb, pb', h1, h2, h3⟩
  · exact .inl h1
  · exact .inr ⟨pb, pb', h1, h2, h3.rel.rest, h3.rel.lists .eq, h3.rel.lists .ge, h3.rel.lists .le⟩

/-- C138 for the merge: it stops for the same reason, or the merged constraints are the same, in the same order. -/
theorem C138_merge {s : Merge.Sorts} (hs : s.Ok) (hφ : StrictMono φ) (o : Merge.Order) {raw raw' : RawProblem}
    (h : RepeatsRaw φ raw raw') (hd : DistinctNumbers raw.eqs raw.ges raw.les) :
    (Merge.make s o (ProblemType.ofRaw raw')).map (List.map fun m => (m.elems, m.min, m.max)) =
      (Merge.make s o (ProblemType.ofRaw raw)).map (List.map fun m => (m.elems, m.min, m.max)) := by
  rcases make_both hs hφ o (ofRaw_both h) hd with ⟨e, h1, h2⟩ | ⟨a, b, h1, h2, h3⟩
  · rw [h1, h2]
  · rw [h1, h2]
    have := congrArg (List.map fun m : Merge.Merged => (m.elems, m.min, m.max)) (show b.map strip = a.map strip from h3)
    rw [List.map_map, List.map_map] at this
    exact congrArg Except.ok this

/-- C138 for `solve`: with the same choices of the outside, the result is the same, and the run that stops the process
stops it for the same reason. -/
theorem C138_solve (upd : Engine → Slv → ρ → Nat → Assign → Outcome Assign) (w : World ρ) (hw : w.sorts.Ok)
    (hφ : StrictMono φ) (c : Option Ctx) {raw raw' : RawProblem} (h : RepeatsRaw φ raw raw')
    (hd : DistinctNumbers raw.eqs raw.ges raw.les) :
    Dispatch.solve (execute upd w) c raw' = Dispatch.solve (execute upd w) c raw := by
  cases c with
  | none => rfl
  | some c =>
    show (prepared _ _ >>= _) = (prepared _ _ >>= _)
    rcases prepared_both c.preprocessing h with ⟨e, h1, h2⟩ | ⟨pb, pb', h1, h2, h3⟩
    · rw [h1, h2]
    · rw [h1, h2]
      have := h3.relD hd
      exact itm_same (this.rel.merge hw hφ this.ids _) rfl rfl c false

/-- C138 for `optimize`, in every mode. -/
theorem C138_optimize (upd : Engine → Slv → ρ → Nat → Assign → Outcome Assign) (s : Setting ρ)
    (hs : ∀ t k, (s.world t k).sorts.Ok) (hφ : StrictMono φ) (c : Ctx) {raw raw' : RawProblem}
    (h : RepeatsRaw φ raw raw') (hd : DistinctNumbers raw.eqs raw.ges raw.les) :
    Dispatch.optimize (execute upd s.untuned) (s.tuners upd c) (some c) raw' =
      Dispatch.optimize (execute upd s.untuned) (s.tuners upd c) (some c) raw := by
  show (prepared _ _ >>= _) = (prepared _ _ >>= _)
  rcases prepared_both c.preprocessing h with ⟨e, h1, h2⟩ | ⟨pb, pb', h1, h2, h3⟩
  · rw [h1, h2]
  · rw [h1, h2, ok_bind, ok_bind]
    have hr := h3.relD hd
    have hc : ∀ t k pb pb', RelD φ pb pb' → itm (execute upd (s.world t k)) c true pb' =
        itm (execute upd (s.world t k)) c true pb :=
      fun t k pb pb' h => itm_same (h.rel.merge (hs t k) hφ h.ids _) rfl rfl c true
    have hb : (s.tuners upd c).branch pb' = (s.tuners upd c).branch pb :=
      branch_same (fun k q q' hq => hc s.first k q q' hq) hr
    have hm : (s.tuners upd c).manual pb' = (s.tuners upd c).manual pb := by
      simp only [Setting.tuners, fun t k => hc t k pb pb' hr]
    have hn : (s.tuners upd c).nlopt pb' = (s.tuners upd c).nlopt pb := by
      simp only [Setting.tuners, fun t k => hc t k pb pb' hr, withoutNlopt]
    have hi := hc s.first 0 pb pb' hr
    simp only [hb, hm, hn]
    rw [show execute upd s.untuned = execute upd (s.world s.first 0) from rfl, hi]

/-! ## The check of a solution -/

open Lpcore

theorem allConstraints_append (vars : List Int) (bad : Int → Int → Bool) : ∀ a b : List Constr,
    allConstraints vars bad (a ++ b) = (do
      let r ← allConstraints vars bad a
      if r then allConstraints vars bad b else .ok false)
  | [], b => rfl
  | c :: a, b => by
    rw [List.cons_append, allConstraints, allConstraints, allConstraints_append vars bad a b]
    cases computeFunction vars c.elems with
    | error e => rfl
    | ok v =>
      simp only [ok_bind]
      split <;> rfl

theorem allConstraints_mem (vars : List Int) (bad : Int → Int → Bool) : ∀ l : List Constr,
    allConstraints vars bad l = .ok true → ∀ c ∈ l, allConstraints vars bad [c] = .ok true
  | c :: l, h, c', hc' => by
    have h' : allConstraints vars bad ([c] ++ l) = .ok true := h
    rw [allConstraints_append] at h'
    obtain ⟨r, h1, h2⟩ := bind_eq_ok.mp h'
    cases r with
    | false => cases h2
    | true =>
      rcases List.mem_cons.mp hc' with rfl | hc'
      · exact h1
      · exact allConstraints_mem vars bad l h2 c' hc'

theorem allConstraints_repeats (vars : List Int) (bad : Int → Int → Bool) {l l' : List Constr}
    (h : Repeats φ l l') : allConstraints vars bad l' = allConstraints vars bad l := by
  induction h with
  | nil => rfl
  | new c _ ih =>
    rw [allConstraints_append, allConstraints_append, ih]
    rfl
  | @again l l' c t _ hc he hv ih =>
    rw [allConstraints_append, ih]
    cases h : allConstraints vars bad l with
    | error e => rfl
    | ok r =>
      cases r with
      | false => rfl
      | true =>
        have h1 := allConstraints_mem vars bad l h c hc
        have h2 : allConstraints vars bad [t] = allConstraints vars bad [c] := by
          simp only [allConstraints, he, hv]
        rw [ok_bind, h2, h1]
        rfl

/-- C138 for the check of a solution. -/
theorem C138_check {raw raw' : RawProblem} (h : RepeatsRaw φ raw raw') (r : Result) :
    Lpcore.isValidSolution raw' r = Lpcore.isValidSolution raw r := by
  unfold Lpcore.isValidSolution isValidSolutionImpl
  simp only [h.names, h.values, allConstraints_repeats _ _ h.eqs, allConstraints_repeats _ _ h.ges,
    allConstraints_repeats _ _ h.les]

/-- C138 for the value of a solution. -/
theorem C138_value {raw raw' : RawProblem} (h : RepeatsRaw φ raw raw') (r : Result) :
    computeSolution raw' r = computeSolution raw r := by
  unfold computeSolution computeSolutionImpl
  simp only [h.names, h.values, h.objective]

/-- The terms must be written in the same order: x0 + x1 = 1 and x1 + x0 = 1 are two constraints for `solve`, and
the result tells it, while x0 + x1 = 1 written twice is one. -/
theorem C138_other_order_counts_twice :
    ∃ (raw : RawProblem) (t : Constr), (∃ c ∈ raw.eqs, t.elems.Perm c.elems ∧ t.value = c.value) ∧
    DistinctNumbers (raw.eqs ++ [t]) raw.ges raw.les ∧
    (Merge.make Merge.stdSorts .none (ProblemType.ofRaw raw)).map List.length = .ok 1 ∧
    (Merge.make Merge.stdSorts .none (ProblemType.ofRaw { raw with eqs := raw.eqs ++ [t] })).map List.length = .ok 2 :=
  ⟨{ eqs := [{ elems := [⟨1, 0⟩, ⟨1, 1⟩], value := 1, id := 0 }], names := ["a", "b"],
     values := [⟨0, 1, .binary⟩, ⟨0, 1, .binary⟩] }, { elems := [⟨1, 1⟩, ⟨1, 0⟩], value := 1, id := 1 },
    ⟨{ elems := [⟨1, 0⟩, ⟨1, 1⟩], value := 1, id := 0 }, by simp, List.Perm.swap _ _ _, rfl⟩,
    by unfold DistinctNumbers; decide, by decide +kernel, by decide +kernel⟩

/-! ## Examples -/

/-- `Preprocess.exRaw` where the equality is written twice, and each `<=` is written again at the end under another
label; the numbers are those of the new places. -/
def exTwice : RawProblem := { Preprocess.exRaw with
  eqs := [{ label := "c1", elems := [⟨1, 0⟩, ⟨1, 1⟩, ⟨1, 2⟩], value := 1, id := 0 },
          { label := "again", elems := [⟨1, 0⟩, ⟨1, 1⟩, ⟨1, 2⟩], value := 1, id := 1 }]
  ges := [{ label := "c2", elems := [⟨1, 1⟩, ⟨1, 2⟩], value := 0, id := 2 }]
  les := [{ label := "c3", elems := [⟨1, 3⟩], value := 0, id := 4 },
          { label := "c4", elems := [⟨1, 0⟩, ⟨1, 3⟩, ⟨1, 4⟩], value := 2, id := 6 },
          { label := "d3", elems := [⟨1, 3⟩], value := 0, id := 7 },
          { label := "d4", elems := [⟨1, 0⟩, ⟨1, 3⟩, ⟨1, 4⟩], value := 2, id := 8 }] }

theorem exTwice_repeats : RepeatsRaw (2 * ·) Preprocess.exRaw exTwice := by
  refine ⟨rfl, rfl, rfl, rfl, ?_, ?_, ?_⟩
  · exact .again { label := "c1", elems := [⟨1, 0⟩, ⟨1, 1⟩, ⟨1, 2⟩], value := 1, id := 0 } _
      (.new (l := []) (l' := []) _ .nil) (by simp) rfl rfl
  · exact .new (l := []) (l' := []) _ .nil
  · exact .again (l' := [_, _, _]) { label := "c4", elems := [⟨1, 0⟩, ⟨1, 3⟩, ⟨1, 4⟩], value := 2, id := 3 } _
      (.again (l' := [_, _]) { label := "c3", elems := [⟨1, 3⟩], value := 0, id := 2 } _
        (.new (l := [_]) (l' := [_]) _ (.new (l := []) (l' := []) _ .nil)) List.mem_cons_self rfl rfl)
      (List.mem_cons_of_mem _ List.mem_cons_self) rfl rfl

theorem double_strictMono : StrictMono fun n : Int => 2 * n := fun a b h => by
  show 2 * a < 2 * b
  omega

theorem exRaw_distinct : DistinctNumbers Preprocess.exRaw.eqs Preprocess.exRaw.ges Preprocess.exRaw.les := by
  unfold DistinctNumbers
  decide

/-- The random solver on the problem with repeated constraints: the same result. -/
example : Dispatch.solve (execute (fun _ => Rand.updRow) Dispatch.exWorld) (some { solver := .random }) exTwice =
    .ok (Optimizer.exResult [⟨[1, 0, 0, 1], 11⟩]) := by
  rw [C138_solve _ _ Merge.stdSorts_ok double_strictMono _ exTwice_repeats exRaw_distinct]
  exact Dispatch.exWorld_runs

/-- The preprocessing keeps the two equalities and removes the repeated `<=` with the first ones, but for c4. -/
example : (Preprocess.preprocess exTwice).map (fun q => (q.eqs.length, q.les.length, q.affected.names)) =
    .ok (2, 2, ["d", "f"]) ∧
    (Preprocess.preprocess Preprocess.exRaw).map (fun q => (q.eqs.length, q.les.length, q.affected.names)) =
    .ok (1, 1, ["d", "f"]) := by
  constructor <;> decide +kernel

/-- A solution checked with the repeated constraints. -/
example : Lpcore.isValidSolution exTwice
    { status := .success, variableName := ["a", "b", "c"], affected := ⟨["d", "e", "f"], [0, 0, 1]⟩,
      solutions := [⟨[1, 0, 0], 11⟩] } = .ok true := by
  rw [C138_check exTwice_repeats]
  decide +kernel

end Bx.Twice
