import Verif.Model.Tuners
import Verif.Model.Lpcore
import Verif.Spec.Rename
import Verif.Proofs.Outcome
import Mathlib.Data.List.InsertIdx

/-! # Lemmas for C137: the functions that read a problem do not look at its names -/

namespace Bx.Rename

open Spec Preprocess

variable {f g : String → String}

theorem cacheOf_rename (cs : List Constr) (v : Nat) : cacheOf (cs.map (renameConstr g)) v = cacheOf cs v := by
  unfold cacheOf
  rw [List.zipIdx_map, List.flatMap_map]
  rfl

theorem visit_rename (pb : Problem) (v : Nat) : visit (renameProblem f g pb) v = visit pb v := by
  unfold visit
  simp only [renameProblem, cacheOf_rename]

theorem csts_rename (pb : Problem) (k : Kind) : csts (renameProblem f g pb) k = (csts pb k).map (renameConstr g) := by
  cases k <;> rfl

theorem step_rename (pb : Problem) : step (renameProblem f g pb) = step pb := by
  funext st p
  unfold step
  simp only [csts_rename, List.getElem?_map]
  cases (csts pb p.1)[p.2]? <;> rfl

theorem affects_rename (pb : Problem) : ∀ (fuel : Nat) (st : St),
    affects (renameProblem f g pb) fuel st = affects pb fuel st
  | 0, st => by
    unfold affects
    cases st.lifo <;> rfl
  | fuel + 1, st => by
    unfold affects
    cases st.lifo with
    | nil => rfl
    | cons top rest =>
      simp only [visit_rename, step_rename]
      congr 1
      funext st2
      exact affects_rename pb fuel st2

theorem isUnused_rename (pb : Problem) (st : St) : isUnused (renameProblem f g pb) st = isUnused pb st := by
  funext v
  unfold isUnused
  rw [visit_rename]

theorem tryStep_rename (k : Kind) (cs : List Constr) (st : St) :
    (cs.map (renameConstr g)).zipIdx.foldlM (tryStep k) st = cs.zipIdx.foldlM (tryStep k) st := by
  rw [List.zipIdx_map, List.foldlM_map]
  rfl

theorem tryAffectVariable_rename (pb : Problem) (st : St) :
    tryAffectVariable (renameProblem f g pb) st = tryAffectVariable pb st := by
  unfold tryAffectVariable
  simp only [renameProblem, tryStep_rename]

theorem bqpObjective_rename (pb : Problem) (st : St) :
    bqpObjective (renameProblem f g pb) st = bqpObjective pb st := by
  unfold bqpObjective
  rw [isUnused_rename]
  rfl

theorem removeUnused_rename (pb : Problem) (st : St) :
    removeUnused (renameProblem f g pb) st = removeUnused pb st := by
  have h : ∀ l st, List.foldl (fun st i =>
      if (st.vars.lookup i).isNone && isUnused (renameProblem f g pb) st i then
        { st with vars := (i, unusedValue (renameProblem f g pb) i) :: st.vars } else st) st l =
      List.foldl (fun st i => if (st.vars.lookup i).isNone && isUnused pb st i then
        { st with vars := (i, unusedValue pb i) :: st.vars } else st) st l := by
    intro l st
    congr 1
    funext st i
    rw [isUnused_rename]
    rfl
  exact h _ _

theorem cstElems_rename (m : List Entry) : ∀ (es : List FunElem) (c : Constr),
    cstElems m (renameConstr g c) es = (cstElems m c es).map (renameConstr g)
  | [], _ => rfl
  | e :: es, c => by
    unfold cstElems
    match m[e.var]? with
    | none => rfl
    | some (.kept j) => exact cstElems_rename m es { c with elems := c.elems ++ [⟨e.factor, j⟩] }
    | some (.gone b) => exact cstElems_rename m es { c with value := if b then c.value - e.factor else c.value }

theorem cstCopy_rename (m : List Entry) (cnt : Nat → Int) : ∀ l : List (Constr × Nat),
    cstCopy m cnt (l.map (Prod.map (renameConstr g) id)) = (cstCopy m cnt l).map (List.map (renameConstr g))
  | [] => rfl
  | (c, i) :: cs => by
    show cstCopy m cnt ((renameConstr g c, i) :: cs.map (Prod.map (renameConstr g) id)) = _
    unfold cstCopy
    by_cases h : cnt i ≤ 1
    · rw [if_pos h, if_pos h]
      exact cstCopy_rename m cnt cs
    · rw [if_neg h, if_neg h, cstCopy_rename m cnt cs]
      have he : cstElems m { renameConstr g c with elems := [] } (renameConstr g c).elems =
          (cstElems m { c with elems := [] } c.elems).map (renameConstr g) :=
        cstElems_rename m c.elems { c with elems := [] }
      rw [he]
      cases cstElems m { c with elems := [] } c.elems with
      | error e => rfl
      | ok c' => cases cstCopy m cnt cs <;> rfl

theorem cstCopy_zip (m : List Entry) (cnt : Nat → Int) (cs : List Constr) :
    cstCopy m cnt (cs.map (renameConstr g)).zipIdx = (cstCopy m cnt cs.zipIdx).map (List.map (renameConstr g)) := by
  rw [List.zipIdx_map, cstCopy_rename]

/-- What `varsCopy` returns, with other names. -/
def names4 (f : String → String) (q : List String × List VarValue × List String × List Int) :
    List String × List VarValue × List String × List Int := (q.1.map f, q.2.1, q.2.2.1.map f, q.2.2.2)

theorem varsCopy_rename (pb : Problem) (vars : List (Nat × Bool)) : ∀ (vs : List VarValue) (i : Nat),
    varsCopy (renameProblem f g pb) vars vs i = (varsCopy pb vars vs i).map (names4 f)
  | [], _ => rfl
  | v :: vs, i => by
    unfold varsCopy
    rw [show (renameProblem f g pb).names[i]? = pb.names[i]?.map f from List.getElem?_map ..]
    cases pb.names[i]? with
    | none => rfl
    | some n =>
      simp only [Option.map_some]
      rw [varsCopy_rename pb vars vs (i + 1)]
      cases varsCopy pb vars vs (i + 1) with
      | error e => rfl
      | ok q =>
        simp only [Except.map, ok_bind]
        cases vars.lookup i <;> rfl

/-- The names that are kept are those of `mapping`. -/
theorem namesKept_loop (pb : Problem) (vars : List (Nat × Bool)) : ∀ (vs : List VarValue) (i : Nat)
    (pre : List String) (q : List String × List VarValue × List String × List Int),
    varsCopy pb vars vs i = .ok q →
    namesKept (mappingLoop vars vs.length i pre.length) (pb.names.drop i) (pre ++ q.1) = true
  | [], _, _, _, _ => rfl
  | v :: vs, i, pre, q, h => by
    unfold varsCopy at h
    cases hn : pb.names[i]? with
    | none => rw [hn] at h; cases h
    | some n =>
      rw [hn] at h
      obtain ⟨q', hq', h⟩ := bind_eq_ok.mp h
      have hlt := (List.getElem?_eq_some_iff.mp hn).1
      have hd : pb.names.drop i = n :: pb.names.drop (i + 1) := by
        rw [List.drop_eq_getElem_cons hlt, (List.getElem?_eq_some_iff.mp hn).2]
      rw [hd]
      simp only [List.length_cons, mappingLoop]
      cases hl : vars.lookup i with
      | none =>
        rw [hl] at h
        obtain rfl := Except.ok.inj h
        have ih := namesKept_loop pb vars vs (i + 1) (pre ++ [n]) q' hq'
        simp only [List.length_append, List.length_singleton, List.append_assoc, List.singleton_append] at ih
        unfold namesKept at ih ⊢
        simp only
        rw [List.zip_cons_cons, List.all_cons, Bool.and_eq_true]
        exact ⟨by simp, ih⟩
      | some b =>
        rw [hl] at h
        obtain rfl := Except.ok.inj h
        have ih := namesKept_loop pb vars vs (i + 1) pre q' hq'
        unfold namesKept at ih ⊢
        simp only
        rw [List.zip_cons_cons, List.all_cons, Bool.and_eq_true]
        exact ⟨rfl, ih⟩

theorem validIndex_rename (cs : List Constr) (n : Nat) : validIndex (cs.map (renameConstr g)) n = validIndex cs n := by
  unfold validIndex
  rw [List.all_map]
  rfl

theorem coefficient_rename (cs : List Constr) :
    ProblemType.coefficientTypeOf (cs.map (renameConstr g)) = ProblemType.coefficientTypeOf cs := by
  unfold ProblemType.coefficientTypeOf
  rw [List.flatMap_map]
  rfl

theorem type_rename (a b c : List Constr) :
    ProblemType.whichProblemType (a.map (renameConstr g)) (b.map (renameConstr g)) (c.map (renameConstr g)) =
      ProblemType.whichProblemType a b c := by
  unfold ProblemType.whichProblemType ProblemType.coefficientType
  simp only [coefficient_rename, List.isEmpty_map]

theorem makeProblem_rename (pb : Problem) (st : St) (mo : MergeObj) :
    makeProblem (renameProblem f g pb) st mo = (makeProblem pb st mo).map (renameProblem f g) := by
  unfold makeProblem
  rw [varsCopy_rename]
  simp only [renameProblem, cstCopy_zip]
  show (check _ _ >>= fun _ => objCopy pb _ mo >>= _) = _
  cases check (keptCount (mappingLoop st.vars pb.values.length 0 0) + st.vars.length == pb.values.length)
      "c == length - length" with
  | error e => rfl
  | ok _ =>
  simp only [ok_bind]
  cases objCopy pb (mappingLoop st.vars pb.values.length 0 0) mo with
  | error e => rfl
  | ok obj =>
  simp only [ok_bind]
  cases hv : varsCopy pb st.vars pb.values 0 with
  | error e => rfl
  | ok q =>
  have h1 : namesKept (mappingLoop st.vars pb.values.length 0 0) pb.names q.1 = true :=
    namesKept_loop pb st.vars pb.values 0 [] q hv
  have h2 : namesKept (mappingLoop st.vars pb.values.length 0 0) (pb.names.map f) (q.1.map f) = true := by
    have hv' : varsCopy (renameProblem f g pb) st.vars pb.values 0 = .ok (names4 f q) := by
      rw [varsCopy_rename, hv]; rfl
    exact namesKept_loop (renameProblem f g pb) st.vars pb.values 0 [] (names4 f q) hv'
  obtain ⟨ns, vs, an, av⟩ := q
  simp only [Except.map, ok_bind, names4, h1, h2, check_true]
  cases cstCopy (mappingLoop st.vars pb.values.length 0 0) (st.cnt .eq) pb.eqs.zipIdx with
  | error e => rfl
  | ok eqs =>
  cases cstCopy (mappingLoop st.vars pb.values.length 0 0) (st.cnt .ge) pb.ges.zipIdx with
  | error e => rfl
  | ok ges =>
  cases cstCopy (mappingLoop st.vars pb.values.length 0 0) (st.cnt .le) pb.les.zipIdx with
  | error e => rfl
  | ok les =>
  simp only [ok_bind, validIndex_rename, type_rename]
  cases check (validIndex eqs vs.length && validIndex ges vs.length && validIndex les vs.length)
      "is_valid_variable_index" with
  | error e => rfl
  | ok _ => simp [renameAffected, renameProblem]

theorem finish_rename (pb : Problem) (st : St) :
    finish (renameProblem f g pb) st = (finish pb st).map (renameProblem f g) := by
  unfold finish
  rw [bqpObjective_rename, removeUnused_rename]
  simp only [affects_rename]
  show (affects pb pb.values.length (removeUnused pb st) >>= _) = _
  cases affects pb pb.values.length (removeUnused pb st) with
  | error e => rfl
  | ok st' =>
    simp only [ok_bind]
    exact makeProblem_rename pb st' _

theorem cacheInRange_rename (pb : Problem) : cacheInRange (renameProblem f g pb) = cacheInRange pb := by
  unfold cacheInRange
  simp only [renameProblem, validIndex_rename]

theorem initCnt_rename (pb : Problem) : initCnt (renameProblem f g pb) = initCnt pb := by
  funext k i
  unfold initCnt
  rw [csts_rename, List.getElem?_map]
  cases (csts pb k)[i]? <;> rfl

theorem run_rename (pb : Problem) : run (renameProblem f g pb) = (run pb).map (renameProblem f g) := by
  unfold run
  rw [cacheInRange_rename, initCnt_rename]
  by_cases h : (!cacheInRange pb) = true
  · rw [if_pos h, if_pos h]; rfl
  · rw [if_neg h, if_neg h]
    show (tryAffectVariable (renameProblem f g pb) (affectBounded pb { cnt := initCnt pb }) >>= fun st =>
      affects (renameProblem f g pb) pb.values.length st >>= fun st => finish (renameProblem f g pb) st) = _
    rw [tryAffectVariable_rename]
    show _ = ((tryAffectVariable pb (affectBounded pb { cnt := initCnt pb })) >>= fun st =>
      affects pb pb.values.length st >>= fun st => finish pb st).map (renameProblem f g)
    cases tryAffectVariable pb (affectBounded pb { cnt := initCnt pb }) with
    | error e => rfl
    | ok st =>
      simp only [ok_bind, affects_rename]
      cases affects pb pb.values.length st with
      | error e => rfl
      | ok st' => exact finish_rename pb st'

theorem affect_rename (pb : Problem) (v : Nat) (b : Bool) :
    affect (renameProblem f g pb) v b = (affect pb v b).map (renameProblem f g) := by
  unfold affect
  rw [cacheInRange_rename, initCnt_rename]
  show (check (decide (v < pb.values.length)) _ >>= _) = _
  cases check (decide (v < pb.values.length)) "variable_index < length" with
  | error e => rfl
  | ok _ =>
    simp only [ok_bind]
    by_cases h : (!cacheInRange pb) = true
    · rw [if_pos h, if_pos h]; rfl
    · rw [if_neg h, if_neg h]
      show (affects (renameProblem f g pb) pb.values.length _ >>= fun st => finish (renameProblem f g pb) st) =
        (affects pb pb.values.length _ >>= fun st => finish pb st).map (renameProblem f g)
      rw [affects_rename]
      cases affects pb pb.values.length { cnt := initCnt pb, lifo := [(v, b)] } with
      | error e => rfl
      | ok st => exact finish_rename pb st

theorem split_rename (pb : Problem) (v : Nat) : split (renameProblem f g pb) v =
    (split pb v).map (Prod.map (renameProblem f g) (renameProblem f g)) := by
  unfold split
  rw [affect_rename, affect_rename]
  cases affect pb v true with
  | error e => rfl
  | ok a => cases affect pb v false <;> rfl

theorem ofRaw_rename (raw : RawProblem) :
    ProblemType.ofRaw (renameRaw f g raw) = renameProblem f g (ProblemType.ofRaw raw) := by
  unfold ProblemType.ofRaw
  simp only [renameRaw, type_rename]
  rfl

theorem prepared_rename (p : Bool) (raw : RawProblem) :
    Itm.prepared p (renameRaw f g raw) = (Itm.prepared p raw).map (renameProblem f g) := by
  unfold Itm.prepared
  cases p with
  | false => exact congrArg Except.ok (ofRaw_rename raw)
  | true =>
    show run _ = (run _).map _
    rw [ofRaw_rename]
    exact run_rename { ProblemType.ofRaw raw with affected := {} }

/-! ## The merged constraints -/

theorem fill_rename (pb : Problem) : Merge.fill (renameProblem f g pb) = Merge.fill pb := by
  funext ret o
  cases o <;> exact List.foldlM_map ..

theorem makeUnsorted_rename (s : Merge.Sorts) (pb : Problem) :
    Merge.makeUnsorted s (renameProblem f g pb) = Merge.makeUnsorted s pb := by
  unfold Merge.makeUnsorted
  rw [fill_rename]

theorem make_rename (s : Merge.Sorts) (o : Merge.Order) (pb : Problem) :
    Merge.make s o (renameProblem f g pb) = Merge.make s o pb := by
  unfold Merge.make Merge.makeSpecial Merge.makeOrdered
  rw [makeUnsorted_rename, fill_rename]
  rfl

/-! ## The solvers -/

open Dispatch Itm

variable {ρ : Type} {upd : Engine → Slv → ρ → Nat → Assign → Outcome Assign}

theorem solveProblem_rename (kind : SolverType) (u : Slv → ρ → Nat → Assign → Outcome Assign) (s : Merge.Sorts)
    (o : Merge.Order) (r : Run ρ) (p : Params) (pb : Problem) :
    solveProblem kind u s o r p (renameProblem f g pb) =
      (solveProblem kind u s o r p pb).map (renameResult f) := by
  unfold solveProblem
  rw [make_rename]
  cases Merge.make s o pb with
  | error e => rfl
  | ok cs =>
    simp only [ok_bind]
    show (solveMerged kind u r p pb cs >>= _) = _
    cases solveMerged kind u r p pb cs <;> rfl

theorem report_rename (st : Optimizer.StorageType) (pb : Problem) (m : Nat) (s : Optimizer.Storage) :
    Optimizer.report st (renameProblem f g pb) m s = (Optimizer.report st pb m s).map (renameResult f) := by
  unfold Optimizer.report
  cases s.best 0 with
  | error e => rfl
  | ok b =>
    simp only [ok_bind]
    cases st with
    | one => rfl
    | bound => cases s.worst <;> rfl
    | five =>
      simp only
      cases s.best 1 with
      | error e => rfl
      | ok b1 =>
      cases s.best 2 with
      | error e => rfl
      | ok b2 =>
      cases s.best 3 with
      | error e => rfl
      | ok b3 => cases s.best 4 <;> rfl

theorem optimizeProblem_rename (kind : SolverType) (u : Slv → ρ → Nat → Assign → Outcome Assign) (s : Merge.Sorts)
    (o : Merge.Order) (ch : Optimizer.Choices ρ) (p : Params) (st : Optimizer.StorageType) (pb : Problem) :
    Optimizer.optimizeProblem kind u s o ch p st (renameProblem f g pb) =
      (Optimizer.optimizeProblem kind u s o ch p st pb).map (renameResult f) := by
  unfold Optimizer.optimizeProblem
  rw [make_rename]
  cases Merge.make s o pb with
  | error e => rfl
  | ok cs =>
    simp only [ok_bind]
    by_cases h : cs = [] ∨ pb.values = []
    · rw [if_pos h, if_pos (show cs = [] ∨ (renameProblem f g pb).values = [] from h)]
      rfl
    · rw [if_neg h, if_neg (show ¬ (cs = [] ∨ (renameProblem f g pb).values = []) from h)]
      unfold Optimizer.optimizeMerged
      simp only [report_rename]
      show ((makeCost pb.objective pb.values.length >>= _) >>= _) = _
      cases makeCost pb.objective pb.values.length with
      | error e => rfl
      | ok _ =>
      simp only [ok_bind]
      show ((Optimizer.Storage.make ⟨pb.type, pb.objective, cs, ch.bastert, ch.hash⟩ ch.srt ch.init >>= _) >>= _) = _
      cases Optimizer.Storage.make ⟨pb.type, pb.objective, cs, ch.bastert, ch.hash⟩ ch.srt ch.init with
      | error e => rfl
      | ok storage =>
      simp only [ok_bind]
      show ((makeSlv kind cs pb.values.length >>= _) >>= _) = _
      cases makeSlv kind cs pb.values.length with
      | error e => rfl
      | ok slv =>
      simp only [ok_bind]
      show ((Optimizer.calls ⟨pb.type, pb.objective, cs, ch.bastert, ch.hash⟩ slv (u slv) p ch.calls
        { storage := storage, x := fun _ => false, compute := Compute.make p.order pb.values.length } >>= _) >>= _) = _
      cases Optimizer.calls ⟨pb.type, pb.objective, cs, ch.bastert, ch.hash⟩ slv (u slv) p ch.calls
        { storage := storage, x := fun _ => false, compute := Compute.make p.order pb.values.length } with
      | error e => rfl
      | ok w =>
      simp only [ok_bind]
      cases Optimizer.report st pb cs.length w.storage <;> rfl

theorem execute_rename (w : Dispatch.World ρ) (p : Plan) (pb : Problem) :
    execute upd w p (renameProblem f g pb) = (execute upd w p pb).map (renameResult f) := by
  unfold execute
  split
  · exact optimizeProblem_rename ..
  · exact solveProblem_rename ..

theorem itm_rename {exec : Plan → Problem → Outcome Result}
    (h : ∀ p pb, exec p (renameProblem f g pb) = (exec p pb).map (renameResult f)) (c : Ctx) (opt : Bool)
    (pb : Problem) : itm exec c opt (renameProblem f g pb) = (itm exec c opt pb).map (renameResult f) := by
  unfold itm
  show (match choose c.solver c.method opt pb.ptype with | none => _ | some p => _) = _
  cases choose c.solver c.method opt pb.ptype with
  | none => rfl
  | some p => exact h p pb

/-! ## The tuned modes -/

theorem readResult_rename (r : Outcome Result) : readResult (r.map (renameResult f)) = readResult r := by
  cases r <;> rfl

theorem manual_rename {inner inner' : Nat → Manual.Tuning → Outcome Result}
    (h : ∀ k t, inner' k t = (inner k t).map (renameResult f)) (p : Manual.Tuning) :
    manual inner' p = (manual inner p).map (renameResult f) := by
  unfold manual
  simp only [h, readResult_rename]
  cases Manual.optimize (fun k t => readResult (inner k t)) p (5 ^ 5) with
  | none => rfl
  | some q =>
    have hb : ∀ k t, ((inner k t).map (renameResult f) >>= fun _ => (.ok () : Outcome Unit)) =
        (inner k t >>= fun _ => .ok ()) := by
      intro k t
      cases inner k t <;> rfl
    simp only [hb]
    cases (q.2.tried.zipIdx.forM fun q => inner q.2 (Manual.tuning p q.1) >>= fun _ => (.ok () : Outcome Unit)) <;> rfl

def renameNode (f g : String → String) (n : Branch.Node) : Branch.Node :=
  { n with problem := renameProblem f g n.problem }

theorem nodeLess_rename (a b : Branch.Node) :
    Branch.nodeLess (renameNode f g a) (renameNode f g b) = Branch.nodeLess a b := rfl

theorem emplace_rename (n : Branch.Node) (jobs : List Branch.Node) (pos : Nat) :
    Branch.emplace (renameNode f g n) (jobs.map (renameNode f g)) pos =
      Prod.map (List.map (renameNode f g)) id (Branch.emplace n jobs pos) := by
  unfold Branch.emplace
  have hi : (jobs.map (renameNode f g)).findIdx (Branch.nodeLess (renameNode f g n)) =
      jobs.findIdx (Branch.nodeLess n) := by
    rw [List.findIdx_map]
    rfl
  rw [hi]
  simp only [Prod.map]
  rw [List.map_insertIdx]
  rfl

theorem body_rename {inner : Nat → Problem → Outcome Branch.Inner}
    (h : ∀ k pb, inner k (renameProblem f g pb) = inner k pb) (a calls : Nat) (jobs : List Branch.Node)
    (best : Branch.Inner) : Branch.body inner a calls (jobs.map (renameNode f g)) best =
      (Branch.body inner a calls jobs best).map (Prod.map (List.map (renameNode f g)) id) := by
  cases jobs with
  | nil => rfl
  | cons it rest =>
    have hj : renameNode f g it :: rest.map (renameNode f g) = (it :: rest).map (renameNode f g) := rfl
    simp only [Branch.body, List.map_cons]
    have hl : (renameNode f g it).problem.names.length = it.problem.names.length := List.length_map ..
    rw [hl, show (renameNode f g it).annoying = it.annoying from rfl]
    by_cases hn : it.problem.names.length ≤ it.annoying
    · rw [if_pos hn, if_pos hn]; rfl
    · rw [if_neg hn, if_neg hn, show (renameNode f g it).problem = renameProblem f g it.problem from rfl,
        split_rename]
      cases split it.problem a with
      | error e => rfl
      | ok q =>
      obtain ⟨one, zero⟩ := q
      simp only [Except.map, ok_bind, Prod.map, h]
      cases inner calls one with
      | error e => rfl
      | ok r0 =>
      simp only [ok_bind]
      cases inner (calls + 1) zero with
      | error e => rfl
      | ok r1 =>
      simp only [ok_bind]
      have hn1 : ∀ pb r, Branch.node (renameProblem f g pb) r = renameNode f g (Branch.node pb r) := fun _ _ => rfl
      rw [hj, hn1, hn1, emplace_rename]
      simp only [Prod.map, id]
      rw [emplace_rename]
      simp only [Prod.map, id]
      rw [← List.eraseIdx_map]
      rfl

theorem loop_rename {inner : Nat → Problem → Outcome Branch.Inner}
    (h : ∀ k pb, inner k (renameProblem f g pb) = inner k pb) (a : Nat) : ∀ (steps calls : Nat)
    (jobs : List Branch.Node) (best : Branch.Inner),
    Branch.loop inner a steps calls (jobs.map (renameNode f g)) best = Branch.loop inner a steps calls jobs best
  | 0, _, _, _ => rfl
  | steps + 1, calls, jobs, best => by
    unfold Branch.loop
    rw [body_rename h]
    cases Branch.body inner a calls jobs best with
    | error e => rfl
    | ok q =>
      obtain ⟨jobs', best'⟩ := q
      simp only [Except.map, Prod.map, id, List.isEmpty_map]
      rw [loop_rename h a steps (calls + 2) jobs' best']

theorem branch_rename {inner : Nat → Problem → Outcome Result}
    (h : ∀ k pb, inner k (renameProblem f g pb) = (inner k pb).map (renameResult f)) (pb : Problem) :
    Dispatch.branch inner (renameProblem f g pb) = (Dispatch.branch inner pb).map (renameResult f) := by
  have hi : ∀ k pb, (inner k (renameProblem f g pb)).map branchInner = (inner k pb).map branchInner := by
    intro k pb
    rw [h]
    cases inner k pb <;> rfl
  unfold Dispatch.branch Branch.optimize
  simp only [hi]
  cases (inner 0 pb).map branchInner with
  | error e => rfl
  | ok best =>
    simp only
    have := loop_rename (f := f) (g := g) (inner := fun k q => (inner k q).map branchInner) hi best.annoying
      (3 ^ pb.values.length + 1) 1 [Branch.node pb best] best
    rw [show [Branch.node (renameProblem f g pb) best] = [Branch.node pb best].map (renameNode f g) from rfl]
    show (match Branch.loop _ _ (3 ^ pb.values.length + 1) 1 _ best with | none => _ | some (.error f) => _ | some (.ok b) => _) = _
    rw [this]
    cases Branch.loop (fun k q => (inner k q).map branchInner) best.annoying (3 ^ pb.values.length + 1) 1
        [Branch.node pb best] best with
    | none => rfl
    | some q => cases q <;> rfl

end Bx.Rename
