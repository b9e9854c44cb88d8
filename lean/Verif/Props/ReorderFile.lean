import Verif.Props.Reorder
import Verif.Props.LooserFile

/-! # C141: the order of the terms in a file -/

namespace Bx.Reorder

open Spec Parser

theorem collect_perm {l l' : List (Token × Int)} (h : l'.Perm l) : (collect l').Perm (collect l) := by
  have h1 : (firsts (l'.map Prod.fst)).Perm (firsts (l.map Prod.fst)) := by
    refine (List.perm_ext_iff_of_nodup (firsts_nodup _) (firsts_nodup _)).mpr fun x => ?_
    rw [mem_firsts, mem_firsts]
    exact (h.map Prod.fst).mem_iff
  unfold collect
  have h2 : (fun n => (n, ((l'.filter fun x => x.1 = n).map Prod.snd).sum)) =
      fun n => (n, ((l.filter fun x => x.1 = n).map Prod.snd).sum) := by
    funext n
    rw [((h.filter _).map Prod.snd).sum_eq]
  rw [h2]
  exact h1.map _

theorem names_of_objective {f : File} (h : ∀ c ∈ f.cons.getD [], ∀ t ∈ c.terms, ∀ x, t.name = some x → x ∈ f.objNames) :
    f.names = firsts f.objNames := by
  unfold File.names
  rw [firsts_eq, firsts_eq, addNames_append]
  refine addNames_of_mem fun x hx => ?_
  obtain ⟨c, hc, hx⟩ := List.mem_flatMap.mp hx
  obtain ⟨t, ht, hx⟩ := List.mem_filterMap.mp hx
  rw [← firsts_eq]
  exact mem_firsts.mpr (h c hc t ht x hx)

theorem constrs_perm {ival : Token → Int} {N : List Token} (op : Op) {cs ds : List Con}
    (h : List.Forall₂ (fun c d => d = { c with terms := d.terms } ∧
      (named ival d.terms).Perm (named ival c.terms)) cs ds) : ∀ k,
    List.Forall₂ SameConstr
      (((cs.zipIdx k).filter fun x => x.1.op.op = op).map fun x => x.1.constr ival N x.2)
      (((ds.zipIdx k).filter fun x => x.1.op.op = op).map fun x => x.1.constr ival N x.2) := by
  induction h with
  | nil => intro k; exact .nil
  | @cons c d cs ds hcd _ ih =>
    intro k
    obtain ⟨h1, h2⟩ := hcd
    have hop : d.op = c.op := by rw [h1]
    simp only [List.zipIdx_cons, List.filter_cons, hop]
    split
    · rw [List.map_cons, List.map_cons]
      refine .cons ⟨?_, ?_⟩ (ih (k + 1))
      · rw [h1]; rfl
      · exact (collect_perm h2).map _
    · exact ih (k + 1)

/-- C141 for a file: two files written correctly that differ by the order of the terms of their constraints, whatever their
layout, are read as the same problem, with the terms in another order.  Missing: variables that are not in the objective,
which get their numbers from the constraints. -/
theorem C141_file_partial (scan : Token → Option Params.D) (hs : ∀ t, Reserved t → scan t = none) (val : Token → Rat)
    (ival : Token → Int) {f g : File} (hfg : ReordersFile ival f g) (okf : FileOk scan val ival f)
    (okg : FileOk scan val ival g) (text text' : List Char) (h : Denotes text f.tokens) (h' : Denotes text' g.tokens)
    (fuel : Nat) (hf : f.tokens.length < fuel) (hg : g.tokens.length < fuel) :
    ∃ p p', makeProblem scan fuel text = .ok p ∧ makeProblem scan fuel text' = .ok p' ∧
      p' = { p with eqs := p'.eqs, ges := p'.ges, les := p'.les } ∧
      List.Forall₂ SameConstr p.eqs p'.eqs ∧
      List.Forall₂ SameConstr p.ges p'.ges ∧
      List.Forall₂ SameConstr p.les p'.les := by
  refine ⟨_, _, C68_read_as_written_partial scan hs val ival f okf text h fuel hf,
    C68_read_as_written_partial scan hs val ival g okg text' h' fuel hg, ?_⟩
  have ho : g.objNames = f.objNames := by rw [hfg.rest]; rfl
  have hn : g.names = f.names := by
    rw [names_of_objective (hfg.names f (by simp)),
      names_of_objective (f := g) (by rw [ho]; exact hfg.names g (by simp)), ho]
  have hc : ∀ op, List.Forall₂ SameConstr (f.constrs ival op)
      (g.constrs ival op) := by
    intro op
    unfold File.constrs
    rw [hn]
    exact constrs_perm op hfg.cons 0
  refine ⟨?_, hc _, hc _, hc _⟩
  have e1 : g.type = f.type := by rw [hfg.rest]
  have e2 : g.linear = f.linear := by rw [hfg.rest]; rfl
  have e3 : g.quads = f.quads := by rw [hfg.rest]; rfl
  have e4 : g.bounds = f.bounds := by rw [hfg.rest]
  have e5 : g.binary = f.binary := by rw [hfg.rest]
  have e6 : g.general = f.general := by rw [hfg.rest]
  have e7 : g.varValue ival = f.varValue ival := by
    funext x
    unfold File.varValue
    rw [e4, e5, e6]
  unfold File.problem
  simp only [e1, e2, e3, e7, hn]

theorem terms_distinct {ival : Token → Int} {f : File} {c : Con} (hc : c ∈ f.cons.getD []) (i : Nat) :
    ((c.constr ival f.names i).elems.map FunElem.var).Nodup := by
  unfold Con.constr collect
  simp only [List.map_map]
  refine List.Nodup.map_on ?_ (firsts_nodup _)
  intro x hx y hy hxy
  have hm : ∀ x ∈ firsts ((named ival c.terms).map Prod.fst), x ∈ f.names := by
    intro x hx
    unfold File.names
    rw [mem_firsts]
    exact List.mem_append_right _ (List.mem_flatMap.mpr ⟨c, hc, Looser.mem_named.mp hx⟩)
  exact (List.idxOf_inj (hm x hx)).mp hxy

/-- C141 from the text to the result of `solve` without preprocessing and with an order of the constraints that sorts the
terms.  `raw` and `raw'` are the problems that are read.  Missing: as in `C141_solve_partial` and `C141_file_partial`. -/
theorem C141_file_solve_partial {ρ : Type} (scan : Token → Option Params.D) (hs : ∀ t, Reserved t → scan t = none)
    (val : Token → Rat) (ival : Token → Int) {f g : File} (hfg : ReordersFile ival f g) (okf : FileOk scan val ival f)
    (okg : FileOk scan val ival g) (text text' : List Char) (h : Denotes text f.tokens) (h' : Denotes text' g.tokens)
    (fuel : Nat) (hf : f.tokens.length < fuel) (hg : g.tokens.length < fuel)
    (upd : Dispatch.Engine → Itm.Slv → ρ → Nat → Assign → Outcome Assign) (w : Dispatch.World ρ) (hw : w.sorts.Ok)
    (ho : w.order ≠ .none ∧ w.order ≠ .p1 ∧ w.order ≠ .p2 ∧ w.order ≠ .p3 ∧ w.order ≠ .p4) (c : Dispatch.Ctx)
    (hc : c.preprocessing = false) :
    ∃ p p', makeProblem scan fuel text = .ok p ∧ makeProblem scan fuel text' = .ok p' ∧
      ∀ raw, p.toRaw = some raw → ∃ raw', p'.toRaw = some raw' ∧ SameConstrs raw raw' ∧
        (SameGroups raw raw' → Dispatch.solve (Dispatch.execute upd w) (some c) raw' =
          Dispatch.solve (Dispatch.execute upd w) (some c) raw) := by
  obtain ⟨p, p', h1, h2, h3, h4, h5, h6⟩ :=
    C141_file_partial scan hs val ival hfg okf okg text text' h h' fuel hf hg
  refine ⟨p, p', h1, h2, fun raw hraw => ?_⟩
  obtain ⟨e1, e2, e3⟩ := Looser.toRaw_lists hraw
  have hsame : SameConstrs raw { raw with eqs := p'.eqs, ges := p'.ges, les := p'.les } := by
    refine ⟨rfl, ?_, ?_, ?_⟩
    · rw [e1]; exact h4
    · rw [e2]; exact h5
    · rw [e3]; exact h6
  refine ⟨_, Looser.toRaw_with h3 hraw, hsame, fun hgr => ?_⟩
  have hp := C68_read_as_written_partial scan hs val ival f okf text h fuel hf
  rw [h1] at hp
  have hp := Except.ok.inj hp
  refine C141_solve_partial upd w hw ho c hc hsame hgr ?_ ?_
  · intro d hd
    rw [e1, e2, e3, hp] at hd
    have hmem : ∀ op, d ∈ f.constrs ival op → (d.elems.map FunElem.var).Nodup := by
      intro op hd
      unfold File.constrs at hd
      obtain ⟨x, hx, rfl⟩ := List.mem_map.mp hd
      exact terms_distinct (List.fst_mem_of_mem_zipIdx (List.mem_filter.mp hx).1) _
    rcases List.mem_append.mp hd with hd | hd
    · rcases List.mem_append.mp hd with hd | hd
      · exact hmem _ hd
      · exact hmem _ hd
    · exact hmem _ hd
  · rw [e1, e2, e3, hp]
    exact Looser.ids_distinct f.names (f.cons.getD [])

/-- A variable that is not in the objective gets its number from the first constraint where it is written, so that the order
of the terms changes the order of the variables. -/
theorem C141_other_variables_are_renumbered :
    (makeProblem scanf 100 (lines ["max a", "st", "x + y <= 1", "end"])).map (fun p => (p.names, p.les)) =
      .ok (["a".toList, "x".toList, "y".toList], [⟨"", [⟨1, 1⟩, ⟨1, 2⟩], 1, 0⟩]) ∧
    (makeProblem scanf 100 (lines ["max a", "st", "y + x <= 1", "end"])).map (fun p => (p.names, p.les)) =
      .ok (["a".toList, "y".toList, "x".toList], [⟨"", [⟨1, 1⟩, ⟨1, 2⟩], 1, 0⟩]) := by decide +kernel

/-! ## Example -/

instance (raw raw' : RawProblem) : Decidable (SameGroups raw raw') := by
  unfold SameGroups
  infer_instance

/-- `exFile` with the terms of its first two constraints in another order. -/
def exTurned : File :=
  { exFile with
    cons := some ([
      ⟨some "c1".toList, [tm none none "x3", tm (some false) none "x1", tm (some false) none "x2"],
        .le, ⟨none, "2".toList⟩⟩,
      ⟨some "c2".toList, [tm (some true) "2" "x3", tm (some false) none "x4", tm (some false) none "x2"],
        .ge, ⟨some true, "1".toList⟩⟩] ++ (exFile.cons.getD []).drop 2) }

theorem exTurned_reorders : ReordersFile scanInt exFile exTurned := by
  refine ⟨rfl, ?_, by decide +kernel⟩
  exact .cons ⟨rfl, by decide +kernel⟩ (.cons ⟨rfl, by decide +kernel⟩ (.cons ⟨rfl, .refl _⟩ (.cons ⟨rfl, .refl _⟩ .nil)))

/-- The hypotheses of `C141_file_partial` hold of it, and it is read with the terms in the other order. -/
example : FileOk scanf scanVal scanInt exTurned ∧ exTurned ≠ exFile ∧
    ((exTurned.problem scanVal scanInt).les.map Constr.elems).head? = some [⟨1, 2⟩, ⟨1, 0⟩, ⟨1, 1⟩] ∧
    ((exFile.problem scanVal scanInt).les.map Constr.elems).head? = some [⟨1, 0⟩, ⟨1, 1⟩, ⟨1, 2⟩] := by decide +kernel

/-- The constraints of the two problems of the example have distinct terms. -/
example : (do let raw ← (exFile.problem scanVal scanInt).toRaw
              let raw' ← (exTurned.problem scanVal scanInt).toRaw
              some (decide (SameGroups raw raw'))) = some true := by
  decide +kernel

end Bx.Reorder
