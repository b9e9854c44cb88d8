import Verif.Proofs.Benchmark4
import Mathlib.Data.List.Sort

/-!
# C85 to C89: the benchmark mode
-/

namespace Bx.Benchmark

open Bx.Params Bx.Utils Bx.Spec.Benchmark

variable {num : Text → Option D} {txt : D → Text} {t : Table} {srt : Sorts}
  {attempt : Text → Attempt} {name : Text}

/-! ## C85: the file -/

/-- C85, part.  A run on a well written file leaves a file with the same models, in the same order,
the same solvers and values, and one more column: the name of the run, and for each model the value
found, or infinity.  Missing: the ill written files below. -/
theorem C85_run_adds_a_column_partial (ht : t.Ok num txt)
    (hr : ∀ r ∈ t.rows, attempt r.1 ≠ .unreadable) (srt : Sorts) (name : Text) :
    (tryBenchmark num txt srt attempt (csv txt t) name).1 =
      csv txt ⟨t.solvers ++ [name], t.rows.map fun r => (r.1, r.2 ++ [valueOf (attempt r.1)])⟩ := by
  obtain ⟨b, es, _, _, _, _, h⟩ := run_table ht srt attempt hr name
  rw [h]
  have : t.add name (newColumn attempt t) =
      ⟨t.solvers ++ [name], t.rows.map fun r => (r.1, r.2 ++ [valueOf (attempt r.1)])⟩ := by
    unfold Table.add newColumn
    congr 1
    rw [← List.map_id t.rows, List.map_map, List.zip_map', List.map_map]
    simp only [List.map_id]
    rfl
  rw [this]

/-- C85: the values read are the values of the table. -/
theorem C85_table_is_read (ht : t.Ok num txt) :
    ∃ b, load num (csv txt t) = .ok b ∧ b.models = t.rows.map Prod.fst ∧ b.solvers = t.solvers ∧
      ∀ i r j v, t.rows[i]? = some r → r.2[j]? = some v → b.array.get i j = .ok v := by
  obtain ⟨b, h1, h2⟩ := load_csv ht
  exact ⟨b, h1, h2.1, h2.2.1, fun i r j v hr hv => loaded_get h2 ht.widths hr hv⟩

/-- C85, part.  The file left by a run can be read by the next one, if the name of the run and its
values can be written, and the last name of the file is not of one letter. -/
theorem C85_next_run_reads_it_partial (ht : t.Ok num txt) (hn : SolverName name)
    (hone : ∀ s ∈ t.solvers.getLast?, s.length ≠ 1)
    (hv : ∀ r ∈ t.rows, Faithful num txt (valueOf (attempt r.1))) :
    Table.Ok num txt
      ⟨t.solvers ++ [name], t.rows.map fun r => (r.1, r.2 ++ [valueOf (attempt r.1)])⟩ := by
  refine ⟨⟨?_, ?_⟩, ?_, ?_, ?_⟩
  · intro s hs
    rcases List.mem_append.1 hs with hs | hs
    · exact ht.solvers.1 s hs
    · rw [List.mem_singleton.1 hs]; exact hn
  · intro s hs
    simp only [List.dropLast_concat] at hs
    rcases List.eq_nil_or_concat t.solvers with h0 | ⟨l, a, h0⟩
    · rw [h0] at hs; simp at hs
    · rw [List.concat_eq_append] at h0
      rw [h0] at hs
      rcases List.mem_append.1 hs with hs | hs
      · exact ht.solvers.2 s (by rw [h0]; simpa using hs)
      · rw [List.mem_singleton.1 hs]
        exact hone a (by rw [h0]; simp)
  · intro r hr
    obtain ⟨q, hq, rfl⟩ := List.mem_map.1 hr
    exact ht.names q hq
  · intro r hr
    obtain ⟨q, hq, rfl⟩ := List.mem_map.1 hr
    simp [ht.widths q hq]
  · intro r hr v hv'
    obtain ⟨q, hq, rfl⟩ := List.mem_map.1 hr
    rcases List.mem_append.1 hv' with hv' | hv'
    · exact ht.cells q hq v hv'
    · rw [List.mem_singleton.1 hv']; exact hv q hq

/-- C85: when a run returns an error, the file is unchanged, whatever it contains. -/
theorem C85_errors_keep_the_file (num : Text → Option D) (txt : D → Text) (srt : Sorts)
    (attempt : Text → Attempt) (file name : Text) (e : Err)
    (h : (tryBenchmark num txt srt attempt file name).2 = .error (.err e)) :
    (tryBenchmark num txt srt attempt file name).1 = file := by
  unfold tryBenchmark at h ⊢
  cases h1 : load num file with
  | error s => rfl
  | ok b =>
    rw [h1] at h
    cases h2 : runModels (b.models.map attempt) with
    | error s => simp only [h2]
    | ok es =>
      simp only [h2] at h ⊢
      unfold finish at h ⊢
      cases h3 : distances b (es.map Element.solution) with
      | error s => simp only
      | ok ds =>
        simp only [h3] at h ⊢
        cases h4 : save txt b name (es.map Element.solution) with
        | error s => simp only
        | ok c =>
          simp only [h4] at h
          rcases saveStats_okOrUb srt b (es.map fun e => (e.type, e.solution)) with
            ⟨y, hy⟩ | ⟨w, hw⟩
          · rw [hy, okBind] at h
            rcases widths_okOrUb b es with ⟨z, hz⟩ | ⟨w, hw⟩
            · rw [hz, okBind] at h
              rcases showLines_okOrUb b es with ⟨z, hz⟩ | ⟨w, hw⟩
              · rw [hz, okBind] at h; cases h
              · rw [hw, errBind] at h; cases h
            · rw [hw, errBind] at h; cases h
          · rw [hw, errBind] at h; cases h

/-- C85: when a model cannot be read, the run returns an error. -/
theorem C85_unreadable_model_is_an_error (ht : t.Ok num txt) {r : Text × List D} (hr : r ∈ t.rows)
    (hu : attempt r.1 = .unreadable) (srt : Sorts) (name : Text) :
    tryBenchmark num txt srt attempt (csv txt t) name = (csv txt t, .error (.err .openFile)) := by
  obtain ⟨b, h1, h2⟩ := load_csv ht
  unfold tryBenchmark
  rw [h1]
  simp only
  rw [runModels_unreadable]
  rw [h2.1, List.mem_map]
  exact ⟨r.1, List.mem_map_of_mem hr, hu⟩

/-! ## C86: the ranks -/

theorem run_types {es : List Element} (h1 : es.map Element.solution = newColumn attempt t)
    (h2 : es.map Element.type = t.rows.map (fun r => typeOf (attempt r.1))) :
    (es.map fun e => (e.type, e.solution)) =
      t.rows.map fun r => (typeOf (attempt r.1), valueOf (attempt r.1)) := by
  rw [← List.zip_map', h1, h2, newColumn, List.zip_map']

/-- C86, part.  The line of ranks of a model gives to each solver, the new one last, one more than
the number of distinct better values; the line of means gives the means of these ranks; the last line
ranks these means, the smallest one first.  Missing: a NaN or a minus infinity in the file. -/
theorem C86_ranks_partial (hsrt : SortsOk srt) (ht : t.Ok num txt) (hne : t.rows ≠ [])
    (hr : ∀ r ∈ t.rows, attempt r.1 ≠ .unreadable)
    (hp : ∀ r ∈ t.rows, ∀ v ∈ r.2 ++ [valueOf (attempt r.1)], Proper v) {rep : Report}
    (h : (tryBenchmark num txt srt attempt (csv txt t) name).2 = .ok rep) :
    rep.stats.ranks = (t.rows.map fun r =>
      (r.2 ++ [valueOf (attempt r.1)]).map
        (denseRank (typeOf (attempt r.1)) (r.2 ++ [valueOf (attempt r.1)]))) ∧
    rep.stats.means = ((List.range (t.solvers.length + 1)).map fun j =>
      D.fin (mean (rep.stats.ranks.map fun r => ((r.getD j 0 : Nat) : Rat)))) ∧
    rep.stats.final = rep.stats.means.map (denseRank .minimize rep.stats.means) := by
  obtain ⟨b, es, hl, h1, h2, _, h3⟩ := run_table ht srt attempt hr name
  rw [h3, run_types h1 h2] at h
  obtain ⟨st, h4, h⟩ := bindOk.1 h
  obtain ⟨_, _, h⟩ := bindOk.1 h
  rw [← Except.ok.inj h]
  obtain ⟨g1, g2, g3⟩ := saveStats_spec hsrt hl ht.widths hne (by simp)
    (fun r hr v hv => hp r hr v (by simp [hv])) (by
      intro c hc
      obtain ⟨r, hr, rfl⟩ := List.mem_map.1 hc
      exact hp r hr _ (by simp)) h4
  refine ⟨?_, g2, g3⟩
  rw [g1]
  conv_lhs => rw [← List.map_id t.rows, List.map_map, List.zip_map', List.map_map]
  rfl

/-! ## C87: the number of solutions -/

theorem success_count : ∀ l : List Attempt,
    ((l.map fun a => match a with | .thrown _ => false | _ => true).filter id).length =
      (l.filter isSolved).length + (l.filter isUnsolved).length +
        (l.filter fun a => decide (a = .unreadable)).length
  | [] => rfl
  | a :: l => by
    have ih := success_count l
    cases a <;> simp [List.filter_cons, isSolved, isUnsolved] at ih ⊢ <;> omega

/-- C87: what is printed as the number of feasible solutions is the number of models for which
`optimize` returned, with a solution or without. -/
theorem C87_failures_are_counted (ht : t.Ok num txt)
    (hr : ∀ r ∈ t.rows, attempt r.1 ≠ .unreadable) {rep : Report}
    (h : (tryBenchmark num txt srt attempt (csv txt t) name).2 = .ok rep) :
    rep.found = (t.rows.filter fun r => isSolved (attempt r.1)).length +
      (t.rows.filter fun r => isUnsolved (attempt r.1)).length := by
  obtain ⟨b, es, _, _, _, h1, h3⟩ := run_table ht srt attempt hr name
  rw [h3] at h
  obtain ⟨st, _, h⟩ := bindOk.1 h
  obtain ⟨_, _, h⟩ := bindOk.1 h
  rw [← Except.ok.inj h]
  have h0 : ((t.rows.map fun r => attempt r.1).filter fun a => decide (a = .unreadable)) = [] := by
    rw [List.filter_eq_nil_iff]
    intro a ha
    obtain ⟨r, h', rfl⟩ := List.mem_map.1 ha
    simp [hr r h']
  have := success_count (t.rows.map fun r => attempt r.1)
  rw [h0, List.length_nil, Nat.add_zero, List.map_map] at this
  have h1' : es.map Element.success = t.rows.map ((fun a => match a with
      | .thrown _ => false | _ => true) ∘ fun r => attempt r.1) := by
    rw [h1]
    refine List.map_congr_left fun r _ => ?_
    simp only [Function.comp_apply]
    cases attempt r.1 <;> rfl
  rw [← h1'] at this
  simp only [List.filter_map, List.length_map] at this
  exact this

/-- C87, part.  The number printed is the number of models with a solution, if `optimize` throws an
exception for each of the others. -/
theorem C87_found_partial (ht : t.Ok num txt)
    (hr : ∀ r ∈ t.rows, attempt r.1 ≠ .unreadable)
    (hu : ∀ r ∈ t.rows, isUnsolved (attempt r.1) = false) {rep : Report}
    (h : (tryBenchmark num txt srt attempt (csv txt t) name).2 = .ok rep) :
    rep.found = (t.rows.filter fun r => isSolved (attempt r.1)).length := by
  have h0 : (t.rows.filter fun r => isUnsolved (attempt r.1)) = [] := by
    rw [List.filter_eq_nil_iff]
    intro r h'
    simp [hu r h']
  rw [C87_failures_are_counted ht hr h, h0, List.length_nil, Nat.add_zero]

/-! ## C88: the distances -/

theorem distance_comparable : ∀ (l : List (D × D)), (∀ p ∈ l, Proper p.1 ∧ Proper p.2) →
    ((l.filter fun p => isValid p.1 && isValid p.2).length = (comparable l).length ∧
    (l.filter fun p => isValid p.1 && isValid p.2).map (fun p => gapOf p.1 p.2) =
      (comparable l).map fun p => percent p.1 p.2)
  | [], _ => ⟨rfl, rfl⟩
  | (a, c) :: l, h => by
    obtain ⟨h1, h2⟩ := distance_comparable l fun p hp => h p (by simp [hp])
    obtain ⟨ha, hc⟩ := h (a, c) (by simp)
    cases a <;> cases c <;> simp only [Proper] at ha hc
    · refine ⟨?_, ?_⟩
      · rw [List.filter_cons_of_pos rfl, comparable, List.length_cons, List.length_cons, h1]
      · rw [List.filter_cons_of_pos rfl, comparable, List.map_cons, List.map_cons, h2]
        rfl
    all_goals exact ⟨h1, h2⟩

/-- C88: the distance printed for a solver is the mean, on the models that both the solver and the
run have solved, of the distances in percents, times the proportion of these models among all the
models of the file. -/
theorem C88_distance_is_scaled (ht : t.Ok num txt)
    (hr : ∀ r ∈ t.rows, attempt r.1 ≠ .unreadable)
    (hp : ∀ r ∈ t.rows, ∀ v ∈ r.2 ++ [valueOf (attempt r.1)], Proper v) {rep : Report}
    (h : (tryBenchmark num txt srt attempt (csv txt t) name).2 = .ok rep) (j : Nat)
    (hj : j < t.solvers.length) (pairs : List (Rat × Rat))
    (hpairs : pairs = comparable (t.rows.map fun r => (r.2.getD j .pinf, valueOf (attempt r.1)))) :
    rep.distances[j]? = some (if pairs = [] then none else
      some (mean (pairs.map fun p => percent p.1 p.2) * (pairs.length / t.rows.length))) := by
  obtain ⟨b, es, hl, h1, h2, _, h3⟩ := run_table ht srt attempt hr name
  rw [h3] at h
  obtain ⟨st, _, h⟩ := bindOk.1 h
  obtain ⟨_, _, h⟩ := bindOk.1 h
  rw [← Except.ok.inj h]
  simp only [List.getElem?_map, List.getElem?_range hj, Option.map_some, Option.some.injEq]
  have hz : (t.rows.map fun r => r.2.getD j .pinf).zip (newColumn attempt t) =
      t.rows.map fun r => (r.2.getD j .pinf, valueOf (attempt r.1)) := by
    rw [newColumn, List.zip_map']
  obtain ⟨g1, g2⟩ := distance_comparable
    (t.rows.map fun r => (r.2.getD j .pinf, valueOf (attempt r.1))) (by
      intro p hp'
      obtain ⟨r, hr', rfl⟩ := List.mem_map.1 hp'
      refine ⟨?_, hp r hr' _ (by simp)⟩
      have hjr : j < r.2.length := by rw [ht.widths r hr']; exact hj
      simp only [List.getD_eq_getElem?_getD, List.getElem?_eq_getElem hjr, Option.getD_some]
      exact hp r hr' _ (by simp [List.getElem_mem hjr]))
  unfold distance
  rw [hz]
  simp only [g1, g2, ← hpairs]
  have hnl : (newColumn attempt t).length = t.rows.length := by simp [newColumn]
  by_cases h0 : pairs = []
  · simp [h0]
  · have hpos : 0 < pairs.length := List.length_pos_iff.2 h0
    rw [if_pos hpos, if_neg h0, hnl]
    congr 1
    unfold mean
    rw [List.length_map]
    have : (pairs.length : Rat) ≠ 0 := by exact_mod_cast hpos.ne'
    field_simp

/-- C88, part.  The distance printed is the mean of the distances if the solver and the run have
solved all the models. -/
theorem C88_distance_partial (ht : t.Ok num txt) (hne : t.rows ≠ [])
    (hr : ∀ r ∈ t.rows, attempt r.1 ≠ .unreadable)
    (hp : ∀ r ∈ t.rows, ∀ v ∈ r.2 ++ [valueOf (attempt r.1)], Proper v) {rep : Report}
    (h : (tryBenchmark num txt srt attempt (csv txt t) name).2 = .ok rep) (j : Nat)
    (hj : j < t.solvers.length) (pairs : List (Rat × Rat))
    (hpairs : pairs = comparable (t.rows.map fun r => (r.2.getD j .pinf, valueOf (attempt r.1))))
    (hall : pairs.length = t.rows.length) :
    rep.distances[j]? = some (some (mean (pairs.map fun p => percent p.1 p.2))) := by
  have hpos : 0 < t.rows.length := List.length_pos_iff.2 hne
  rw [C88_distance_is_scaled ht hr hp h j hj pairs hpairs, if_neg (by
    intro h0; rw [h0] at hall; simp at hall; omega), hall]
  have : (t.rows.length : Rat) ≠ 0 := by exact_mod_cast hpos.ne'
  rw [div_self this, mul_one]

/-! ## C89: the end of a run -/

/-- C89, part.  A run on a well written file ends, with its report, if there is a solver and a
model, if no value is null, and if the number of models is none of 512, 768, 1152...  Missing: what
the theorems below show to be undefined. -/
theorem C89_run_ends_partial (ht : t.Ok num txt) (hs : t.solvers ≠ []) (hne : t.rows ≠ [])
    (hf : ∀ k, t.rows.length ≠ full k) (hr : ∀ r ∈ t.rows, attempt r.1 ≠ .unreadable)
    (hp : ∀ r ∈ t.rows, ∀ v ∈ r.2 ++ [valueOf (attempt r.1)], Proper v ∧ v ≠ .fin 0)
    (srt : Sorts) (name : Text) :
    ∃ rep, (tryBenchmark num txt srt attempt (csv txt t) name).2 = .ok rep := by
  obtain ⟨b, es, hl, h1, h2, _, h3⟩ := run_table ht srt attempt hr name
  rw [h3, run_types h1 h2]
  obtain ⟨p, hp'⟩ := rankLines_total (srt := srt) hl ht.widths hs hf t.rows []
    (t.rows.map fun r => (typeOf (attempt r.1), valueOf (attempt r.1)))
    (List.replicate (b.solvers.length + 1) 0) rfl (by simp)
    (fun r hr v hv => (hp r hr v (by simp [hv])).1) (by
      intro c hc
      obtain ⟨r, hr, rfl⟩ := List.mem_map.1 hc
      exact (hp r hr _ (by simp)).1)
  rw [List.length_nil] at hp'
  unfold saveStats
  simp only [hp', okBind]
  rw [widths_ok hl ht.widths hne (fun r hr v hv => hp r hr v (by simp [hv])) (by
    intro e he
    have : e.solution ∈ es.map Element.solution := List.mem_map_of_mem he
    rw [h1] at this
    obtain ⟨r, hr', hv⟩ := List.mem_map.1 this
    rw [← hv]
    exact hp r hr' _ (by simp)), okBind]
  exact ⟨_, rfl⟩

theorem run_ub (ht : t.Ok num txt) (hr : ∀ r ∈ t.rows, attempt r.1 ≠ .unreadable)
    (srt : Sorts) (name : Text)
    (h : ∀ b es, Loaded t b → es.map Element.solution = newColumn attempt t →
      (∃ w, saveStats srt b
        (t.rows.map fun r => (typeOf (attempt r.1), valueOf (attempt r.1))) =
          .error (.fault (.ub w))) ∨ ∃ w, widths b es = .error (.fault (.ub w))) :
    ∃ w, (tryBenchmark num txt srt attempt (csv txt t) name).2 = .error (.fault (.ub w)) := by
  obtain ⟨b, es, hl, h1, h2, _, h3⟩ := run_table ht srt attempt hr name
  rw [h3, run_types h1 h2]
  rcases h b es hl h1 with ⟨w, hw⟩ | ⟨w, hw⟩
  · exact ⟨w, by rw [hw, errBind]⟩
  · rcases saveStats_okOrUb srt b (t.rows.map fun r =>
      (typeOf (attempt r.1), valueOf (attempt r.1))) with ⟨y, hy⟩ | ⟨w', hw'⟩
    · exact ⟨w, by rw [hy, okBind, hw, errBind]⟩
    · exact ⟨w', by rw [hw', errBind]⟩

/-- C89 does not hold for a file without solver, that is, for the first run on a list of models:
`save_stats` reads an empty array. -/
theorem C89_first_run_is_undefined (ht : t.Ok num txt) (hs : t.solvers = []) (hne : t.rows ≠ [])
    (hr : ∀ r ∈ t.rows, attempt r.1 ≠ .unreadable) (srt : Sorts) (name : Text) :
    ∃ w, (tryBenchmark num txt srt attempt (csv txt t) name).2 = .error (.fault (.ub w)) := by
  refine run_ub ht hr srt name fun b es hl _ => .inl ?_
  obtain ⟨w, hw⟩ := rankLines_ub srt b
    (t.rows.map fun r => (typeOf (attempt r.1), valueOf (attempt r.1))) 0 0
    (List.replicate (b.solvers.length + 1) 0) (by simpa using List.length_pos_iff.2 hne)
    (fun c => readLine_undefined hl (.inl hs) c)
  exact ⟨w, by unfold saveStats; rw [hw, errBind]⟩

/-- C89 does not hold for 512 models, nor for any size at which the array is full: `save_stats` reads
the cell after the last one. -/
theorem C89_full_array_is_undefined (ht : t.Ok num txt) (k : Nat) (hk : t.rows.length = full k)
    (hr : ∀ r ∈ t.rows, attempt r.1 ≠ .unreadable) (srt : Sorts) (name : Text) :
    ∃ w, (tryBenchmark num txt srt attempt (csv txt t) name).2 = .error (.fault (.ub w)) := by
  have hpos : 0 < t.rows.length := by have := full_ge k; omega
  refine run_ub ht hr srt name fun b es hl _ => .inl ?_
  obtain ⟨w, hw⟩ := rankLines_ub srt b
    (t.rows.map fun r => (typeOf (attempt r.1), valueOf (attempt r.1))) 0 (t.rows.length - 1)
    (List.replicate (b.solvers.length + 1) 0) (by simp; omega)
    (fun c => readLine_undefined hl (.inr ⟨by omega, k, hk⟩) c)
  exact ⟨w, by unfold saveStats; rw [hw, errBind]⟩

/-- C89 does not hold for a file without model: the width of the column of the models is the one of
the longest of no name. -/
theorem C89_no_model_is_undefined (ht : t.Ok num txt) (hne : t.rows = []) (srt : Sorts)
    (name : Text) :
    ∃ w, (tryBenchmark num txt srt attempt (csv txt t) name).2 = .error (.fault (.ub w)) := by
  refine run_ub ht (by simp [hne]) srt name fun b es hl h1 => .inr ?_
  have hes : es = [] := by simpa [newColumn, hne] using h1
  have hm : b.models = [] := by rw [hl.1, hne]; rfl
  refine ⟨"std::max_element(...)->size()", ?_⟩
  unfold widths
  rw [hm, hes]
  rfl

/-- C89 does not hold when a value of the file is null: the number of its digits is the logarithm of
zero converted to an integer. -/
theorem C89_null_value_is_undefined (ht : t.Ok num txt) {r : Text × List D} (h0 : r ∈ t.rows)
    (hz : .fin 0 ∈ r.2) (hr : ∀ r ∈ t.rows, attempt r.1 ≠ .unreadable) (srt : Sorts)
    (name : Text) :
    ∃ w, (tryBenchmark num txt srt attempt (csv txt t) name).2 = .error (.fault (.ub w)) :=
  run_ub ht hr srt name fun _ es hl _ => .inr (widths_zero hl ht.widths h0 hz es)

/-! ## C119: the colours of the console -/

theorem fold_lower : ∀ (l : List D) (m : Rat),
    ∃ q, l.foldl lowerOf (.fin m) = .fin q ∧ (q = m ∨ .fin q ∈ l) ∧ q ≤ m ∧ ∀ p, .fin p ∈ l → q ≤ p
  | [], m => ⟨m, rfl, .inl rfl, le_refl _, by simp⟩
  | v :: l, m => by
    obtain ⟨k, hk, hk1, hk2, hk3⟩ : ∃ k, lowerOf (.fin m) v = .fin k ∧ (k = m ∨ .fin k = v) ∧
        k ≤ m ∧ ∀ p, .fin p = v → k ≤ p := by
      unfold lowerOf
      cases v with
      | nan | ninf | pinf => exact ⟨m, by simp [isValid, D.lt], .inl rfl, le_refl _, by simp⟩
      | fin p =>
        by_cases h : p < m
        · exact ⟨p, by simp [isValid, D.lt, h], .inr rfl, h.le, by
            intro p' hp'; rw [D.fin.injEq] at hp'; exact hp'.ge⟩
        · exact ⟨m, by simp [isValid, D.lt, h], .inl rfl, le_refl _, by
            intro p' hp'; rw [D.fin.injEq] at hp'; rw [hp']; exact not_lt.1 h⟩
    obtain ⟨q, h1, h2, h3, h4⟩ := fold_lower l k
    refine ⟨q, by rw [List.foldl_cons, hk, h1], ?_, h3.trans hk2, ?_⟩
    · rcases h2 with rfl | h2
      · rcases hk1 with rfl | hk1
        · exact .inl rfl
        · exact .inr (by simp [hk1])
      · exact .inr (by simp [h2])
    · intro p hp
      rcases List.mem_cons.1 hp with h | h
      · exact h3.trans (hk3 p h)
      · exact h4 p h

theorem fold_upper : ∀ (l : List D) (m : Rat),
    ∃ q, l.foldl upperOf (.fin m) = .fin q ∧ (q = m ∨ .fin q ∈ l) ∧ m ≤ q ∧ ∀ p, .fin p ∈ l → p ≤ q
  | [], m => ⟨m, rfl, .inl rfl, le_refl _, by simp⟩
  | v :: l, m => by
    obtain ⟨k, hk, hk1, hk2, hk3⟩ : ∃ k, upperOf (.fin m) v = .fin k ∧ (k = m ∨ .fin k = v) ∧
        m ≤ k ∧ ∀ p, .fin p = v → p ≤ k := by
      unfold upperOf
      cases v with
      | nan | ninf | pinf => exact ⟨m, by simp [isValid, D.lt], .inl rfl, le_refl _, by simp⟩
      | fin p =>
        by_cases h : m < p
        · exact ⟨p, by simp [isValid, D.lt, h], .inr rfl, h.le, by
            intro p' hp'; rw [D.fin.injEq] at hp'; exact hp'.le⟩
        · exact ⟨m, by simp [isValid, D.lt, h], .inl rfl, le_refl _, by
            intro p' hp'; rw [D.fin.injEq] at hp'; rw [hp']; exact not_lt.1 h⟩
    obtain ⟨q, h1, h2, h3, h4⟩ := fold_upper l k
    refine ⟨q, by rw [List.foldl_cons, hk, h1], ?_, hk2.trans h3, ?_⟩
    · rcases h2 with rfl | h2
      · rcases hk1 with rfl | hk1
        · exact .inl rfl
        · exact .inr (by simp [hk1])
      · exact .inr (by simp [h2])
    · intro p hp
      rcases List.mem_cons.1 hp with h | h
      · exact (hk3 p h).trans h3
      · exact h4 p h

/-- A line of the console: the numbers, the lowest ones green, the highest ones blue. -/
theorem consoleLine_spec (cells : List D) (e : Element) (he : e.success = false → e.solution = .pinf)
    (hd : ∀ q, .fin q ∈ cells ++ [e.solution] → |q| ≤ doubleMax) :
    (consoleLine cells e).map Prod.fst = cells ++ [e.solution] ∧
    ∀ p ∈ consoleLine cells e, (p.2 = .green ↔ Lowest (cells ++ [e.solution]) p.1) ∧
      (p.2 = .blue ↔ Highest (cells ++ [e.solution]) p.1 ∧ ¬ Lowest (cells ++ [e.solution]) p.1) := by
  have hlow : (if e.success then lowerOf (cells.foldl lowerOf (.fin doubleMax)) e.solution
      else cells.foldl lowerOf (.fin doubleMax)) =
      (cells ++ [e.solution]).foldl lowerOf (.fin doubleMax) := by
    rw [List.foldl_append]
    split
    · rfl
    · rename_i h
      rw [he (by simpa using h)]
      rfl
  have hup : (if e.success then upperOf (cells.foldl upperOf (.fin (-doubleMax))) e.solution
      else cells.foldl upperOf (.fin (-doubleMax))) =
      (cells ++ [e.solution]).foldl upperOf (.fin (-doubleMax)) := by
    rw [List.foldl_append]
    split
    · rfl
    · rename_i h
      rw [he (by simpa using h)]
      rfl
  unfold consoleLine
  dsimp only
  rw [hlow, hup]
  generalize cells ++ [e.solution] = vs at hd ⊢
  obtain ⟨a, a1, a2, a3, a4⟩ := fold_lower vs doubleMax
  obtain ⟨b, b1, b2, b3, b4⟩ := fold_upper vs (-doubleMax)
  rw [a1, b1]
  have green : ∀ v ∈ vs, D.eq v (.fin a) = true ↔ Lowest vs v := by
    intro v hv
    constructor
    · intro h
      cases v with
      | fin q =>
        obtain rfl : q = a := by simpa [D.eq] using h
        exact ⟨q, rfl, a4⟩
      | nan | ninf | pinf => simp [D.eq] at h
    · rintro ⟨q, rfl, hq⟩
      have h1 : a ≤ q := a4 q hv
      have h2 : q ≤ a := by
        rcases a2 with rfl | h
        · exact (abs_le.1 (hd q hv)).2
        · exact hq a h
      simp [D.eq, le_antisymm h2 h1]
  have blue : ∀ v ∈ vs, D.eq v (.fin b) = true ↔ Highest vs v := by
    intro v hv
    constructor
    · intro h
      cases v with
      | fin q =>
        obtain rfl : q = b := by simpa [D.eq] using h
        exact ⟨q, rfl, b4⟩
      | nan | ninf | pinf => simp [D.eq] at h
    · rintro ⟨q, rfl, hq⟩
      have h1 : q ≤ b := b4 q hv
      have h2 : b ≤ q := by
        rcases b2 with rfl | h
        · exact (abs_le.1 (hd q hv)).1
        · exact hq b h
      simp [D.eq, le_antisymm h1 h2]
  refine ⟨by simp [Function.comp_def], ?_⟩
  intro p hp
  obtain ⟨v, hv, rfl⟩ := List.mem_map.1 hp
  dsimp only
  rw [← green v hv, ← blue v hv]
  unfold colour
  cases D.eq v (.fin a) <;> cases D.eq v (.fin b) <;> simp

/-- C119: the console has a line per model, with the numbers of the new file; in each line the lowest
numbers are green, and the highest ones blue unless they are also the lowest. -/
theorem C119_colours (ht : t.Ok num txt) (hr : ∀ r ∈ t.rows, attempt r.1 ≠ .unreadable)
    (hd : ∀ r ∈ t.rows, ∀ q, .fin q ∈ r.2 ++ [valueOf (attempt r.1)] → |q| ≤ doubleMax)
    {rep : Report} (h : (tryBenchmark num txt srt attempt (csv txt t) name).2 = .ok rep) :
    List.Forall₂ (fun r line => line.map Prod.fst = r.2 ++ [valueOf (attempt r.1)] ∧
      ∀ p ∈ line, (p.2 = .green ↔ Lowest (r.2 ++ [valueOf (attempt r.1)]) p.1) ∧
        (p.2 = .blue ↔ Highest (r.2 ++ [valueOf (attempt r.1)]) p.1 ∧
          ¬ Lowest (r.2 ++ [valueOf (attempt r.1)]) p.1)) t.rows rep.lines := by
  obtain ⟨b, es, hl, h1, h2, h5, h3⟩ := run_table ht srt attempt hr name
  rw [h3] at h
  obtain ⟨st, _, h⟩ := bindOk.1 h
  obtain ⟨_, _, h⟩ := bindOk.1 h
  rw [← Except.ok.inj h]
  have hlen : es.length = t.rows.length := by
    rw [← List.length_map (f := Element.solution), h1]; simp [newColumn]
  rw [List.forall₂_iff_get]
  refine ⟨by simp [hlen], ?_⟩
  intro i hi hi'
  have hie : i < es.length := by omega
  have e1 : es[i].solution = valueOf (attempt t.rows[i].1) := by
    have := congrArg (fun l => l[i]?) h1
    simpa [newColumn, hi, hie] using this
  have e2 : es[i].success = false → es[i].solution = .pinf := by
    have := congrArg (fun l => l[i]?) h5
    simp only [List.getElem?_map, List.getElem?_eq_getElem hi, List.getElem?_eq_getElem hie,
      Option.map_some, Option.some.injEq] at this
    rw [this, e1]
    cases attempt t.rows[i].1 <;> simp [valueOf]
  simp only [List.get_eq_getElem, List.getElem_map, List.getElem_zip]
  have := consoleLine_spec t.rows[i].2 es[i] e2 (by
    rw [e1]; exact hd _ (List.getElem_mem hi))
  rw [e1] at this
  exact this

theorem lowest_minimize (vs : List D) (v : D) :
    Lowest vs v ↔ ((∃ q, v = .fin q) ∧ ∀ w ∈ vs, better .minimize w v = false) := by
  constructor
  · rintro ⟨q, rfl, h⟩
    refine ⟨⟨q, rfl⟩, ?_⟩
    intro w hw
    cases w with
    | fin p => simpa [better] using h p hw
    | nan | ninf | pinf => rfl
  · rintro ⟨⟨q, rfl⟩, h⟩
    exact ⟨q, rfl, fun p hp => by simpa [better] using h _ hp⟩

theorem highest_maximize (vs : List D) (v : D) :
    Highest vs v ↔ ((∃ q, v = .fin q) ∧ ∀ w ∈ vs, better .maximize w v = false) := by
  constructor
  · rintro ⟨q, rfl, h⟩
    refine ⟨⟨q, rfl⟩, ?_⟩
    intro w hw
    cases w with
    | fin p => simpa [better] using h p hw
    | nan | ninf | pinf => rfl
  · rintro ⟨⟨q, rfl⟩, h⟩
    exact ⟨q, rfl, fun p hp => by simpa [better] using h _ hp⟩

theorem forall₂_mem {α β : Type} {R : α → β → Prop} : ∀ {l : List α} {m : List β},
    List.Forall₂ R l m → ∀ p ∈ l.zip m, R p.1 p.2
  | _, _, .nil, _, h => by simp at h
  | _, _, .cons h hs, p, hp => by
    rcases List.mem_cons.1 hp with rfl | hp
    · exact h
    · exact forall₂_mem hs p hp

/-- C119, part.  On the line of a minimization, the green numbers are the results that no other one of
the line improves.  Missing: the maximizations. -/
theorem C119_green_is_best_partial (ht : t.Ok num txt)
    (hr : ∀ r ∈ t.rows, attempt r.1 ≠ .unreadable)
    (hd : ∀ r ∈ t.rows, ∀ q, .fin q ∈ r.2 ++ [valueOf (attempt r.1)] → |q| ≤ doubleMax)
    {rep : Report} (h : (tryBenchmark num txt srt attempt (csv txt t) name).2 = .ok rep)
    {r : Text × List D} {line : List (D × Colour)} (hrow : (r, line) ∈ t.rows.zip rep.lines)
    (hmin : typeOf (attempt r.1) = .minimize) {p : D × Colour} (hp : p ∈ line) :
    p.2 = .green ↔ (∃ q, p.1 = .fin q) ∧
      ∀ w ∈ r.2 ++ [valueOf (attempt r.1)], better (typeOf (attempt r.1)) w p.1 = false := by
  rw [((forall₂_mem (C119_colours ht hr hd h) _ hrow).2 p hp).1, lowest_minimize, hmin]

/-- C119 does not hold for a maximization: the results that no other one improves are blue, or green
when all the results of the line are equal. -/
theorem C119_best_is_blue (ht : t.Ok num txt)
    (hr : ∀ r ∈ t.rows, attempt r.1 ≠ .unreadable)
    (hd : ∀ r ∈ t.rows, ∀ q, .fin q ∈ r.2 ++ [valueOf (attempt r.1)] → |q| ≤ doubleMax)
    {rep : Report} (h : (tryBenchmark num txt srt attempt (csv txt t) name).2 = .ok rep)
    {r : Text × List D} {line : List (D × Colour)} (hrow : (r, line) ∈ t.rows.zip rep.lines)
    (hmax : typeOf (attempt r.1) = .maximize) {p : D × Colour} (hp : p ∈ line)
    {q : Rat} (hq : p.1 = .fin q)
    (hbest : ∀ w ∈ r.2 ++ [valueOf (attempt r.1)], better (typeOf (attempt r.1)) w p.1 = false) :
    ((∀ q', .fin q' ∈ r.2 ++ [valueOf (attempt r.1)] → q' = q) → p.2 = .green) ∧
    (∀ q', .fin q' ∈ r.2 ++ [valueOf (attempt r.1)] → q' ≠ q → p.2 = .blue) := by
  have hc := (forall₂_mem (C119_colours ht hr hd h) _ hrow).2 p hp
  have hh : Highest (r.2 ++ [valueOf (attempt r.1)]) p.1 := by
    rw [highest_maximize, ← hmax]; exact ⟨⟨q, hq⟩, hbest⟩
  have hl : Lowest (r.2 ++ [valueOf (attempt r.1)]) p.1 ↔
      ∀ q' : Rat, .fin q' ∈ r.2 ++ [valueOf (attempt r.1)] → q' = q := by
    obtain ⟨k, hk, hk'⟩ := hh
    obtain rfl : q = k := by rw [hq] at hk; exact D.fin.inj hk
    constructor
    · rintro ⟨k, hk2, hk3⟩
      obtain rfl : q = k := by rw [hq] at hk2; exact D.fin.inj hk2
      exact fun q' hq' => le_antisymm (hk' _ hq') (hk3 _ hq')
    · exact fun h => ⟨q, hq, fun p hp => (h p hp).ge⟩
  exact ⟨fun g => hc.1.2 (hl.2 g), fun q' h1 h2 => hc.2.2 ⟨hh, fun h => h2 (hl.1 h q' h1)⟩⟩

/-! ## A sort -/

/-- A sort that is right. -/
def exSorts : Sorts where
  value t l := l.insertionSort fun a b => key t a.value ≤ key t b.value
  mean l := l.insertionSort fun a b => key .minimize a.value ≤ key .minimize b.value
  position l := l.insertionSort fun a b => a.position ≤ b.position

instance (t : ObjType) : Std.Total fun a b : Res => key t a.value ≤ key t b.value :=
  ⟨fun _ _ => le_total _ _⟩
instance (t : ObjType) : IsTrans Res fun a b : Res => key t a.value ≤ key t b.value :=
  ⟨fun _ _ _ => le_trans⟩
instance : Std.Total fun a b : Res => a.position ≤ b.position := ⟨fun _ _ => le_total _ _⟩
instance : IsTrans Res fun a b : Res => a.position ≤ b.position := ⟨fun _ _ _ => le_trans⟩

theorem exSorts_ok : SortsOk exSorts where
  value_perm t l := List.perm_insertionSort _ l
  value_sorted t l h := by
    refine (List.pairwise_insertionSort
      (fun a b : Res => key t a.value ≤ key t b.value) l).imp_of_mem ?_
    intro a b ha hb hab
    have ha' := h a ((List.perm_insertionSort _ l).mem_iff.1 ha)
    have hb' := h b ((List.perm_insertionSort _ l).mem_iff.1 hb)
    rw [Bool.eq_false_iff]
    intro hc
    refine absurd hab (not_le.2 ?_)
    cases h1 : b.value <;> cases h2 : a.value <;> simp_all [before, isValid, key]
    rename_i p q
    cases t <;> simp_all [D.lt, signed]
  mean_perm l := List.perm_insertionSort _ l
  mean_sorted l h := by
    refine (List.pairwise_insertionSort
      (fun a b : Res => key .minimize a.value ≤ key .minimize b.value) l).imp_of_mem ?_
    intro a b ha hb hab
    have ha' := h a ((List.perm_insertionSort _ l).mem_iff.1 ha)
    have hb' := h b ((List.perm_insertionSort _ l).mem_iff.1 hb)
    rw [Bool.eq_false_iff]
    exact fun hc => absurd hab (not_le.2 ((lt_key hb' ha').1 hc))
  position_perm l := List.perm_insertionSort _ l
  position_sorted l := List.pairwise_insertionSort _ l

/-! ## Examples -/

instance (c : Char) : Decidable (Separator c) := inferInstanceAs (Decidable (c ∈ _))
instance (w : Text) : Decidable (Word w) := inferInstanceAs (Decidable (_ ∧ _))
instance (w : Text) : Decidable (SolverName w) := inferInstanceAs (Decidable (_ ∧ _))
instance (num : Text → Option D) (txt : D → Text) (v : D) : Decidable (Faithful num txt v) :=
  inferInstanceAs (Decidable (_ ∧ _))
instance (l : List Text) : Decidable (Solvers l) := inferInstanceAs (Decidable (_ ∧ _))
instance : (v : D) → Decidable (Proper v)
  | .fin _ | .pinf => isTrue trivial
  | .nan | .ninf => isFalse id

theorem tableOk_iff (num : Text → Option D) (txt : D → Text) (t : Table) :
    (Solvers t.solvers ∧ (∀ r ∈ t.rows, Word r.1) ∧
      (∀ r ∈ t.rows, r.2.length = t.solvers.length) ∧
      ∀ r ∈ t.rows, ∀ v ∈ r.2, Faithful num txt v) ↔ t.Ok num txt :=
  ⟨fun ⟨a, b, c, d⟩ => ⟨a, b, c, d⟩, fun ⟨a, b, c, d⟩ => ⟨a, b, c, d⟩⟩

instance (num : Text → Option D) (txt : D → Text) (t : Table) : Decidable (t.Ok num txt) :=
  decidable_of_iff _ (tableOk_iff num txt t)

/-- Some numbers and their texts. -/
def exNumbers : List (D × Text) :=
  [(.fin 0, ['0']), (.fin 1, ['1']), (.fin 2, ['2']), (.fin 9, ['9']), (.fin 10, ['1', '0']),
    (.fin 20, ['2', '0']), (.pinf, ['i', 'n', 'f']), (.ninf, ['-', 'i', 'n', 'f'])]

def exTxt (v : D) : Text := ((exNumbers.find? fun p => p.1 = v).map Prod.snd).getD ['?']

def exNum (w : Text) : Option D := (exNumbers.find? fun p => p.2 = w).map Prod.fst

/-- Two solvers on two models; the second solver has no result on the second model. -/
def exTable : Table :=
  ⟨["ab".toList, "cd".toList], [("m".toList, [.fin 10, .fin 20]), ("n o".toList, [.fin 2, .pinf])]⟩

/-- A run that solves both models, which are minimizations. -/
def exAttempt (m : Text) : Attempt :=
  .solved .minimize (if m = "m".toList then .fin 10 else .fin 1)

theorem exTable_ok : exTable.Ok exNum exTxt := by decide +kernel

/-- C85: the hypotheses are met, and the file grows. -/
example : csv exTxt exTable = "file,ab,cd\nm,10,20\nn o,2,inf\n".toList ∧
    (tryBenchmark exNum exTxt exSorts exAttempt (csv exTxt exTable) "ef".toList).1 =
      "file,ab,cd,ef\nm,10,20,10\nn o,2,inf,1\n".toList := by
  refine ⟨by decide +kernel, ?_⟩
  rw [C85_run_adds_a_column_partial exTable_ok (fun r _ => by simp [exAttempt]) exSorts]
  decide +kernel

/-- The next run reads the file. -/
example : Table.Ok exNum exTxt ⟨exTable.solvers ++ ["ef".toList],
    exTable.rows.map fun r => (r.1, r.2 ++ [valueOf (exAttempt r.1)])⟩ :=
  C85_next_run_reads_it_partial exTable_ok (by decide +kernel) (by decide +kernel)
    (by decide +kernel)

/-- The error of an unreadable model leaves the file. -/
example : tryBenchmark exNum exTxt exSorts (fun _ => .unreadable) (csv exTxt exTable) "ef".toList =
    (csv exTxt exTable, .error (.err .openFile)) :=
  C85_unreadable_model_is_an_error exTable_ok
    (r := ("m".toList, [.fin 10, .fin 20])) (by decide +kernel) rfl _ _

/-- C85 does not hold for the names of one letter: a run adds the column `a`, the next run adds the
column `b`, and the file cannot be read any more. -/
theorem C85_one_letter_name_breaks_the_file :
    ∃ t : Table, t.Ok exNum exTxt ∧
      csv exTxt t = "file,ab\nm,10\n".toList ∧
      (tryBenchmark exNum exTxt exSorts exAttempt (csv exTxt t) ['a']).1 =
        "file,ab,a\nm,10,10\n".toList ∧
      (tryBenchmark exNum exTxt exSorts exAttempt "file,ab,a\nm,10,10\n".toList ['b']).1 =
        "file,ab,a,b\nm,10,10,10\n".toList ∧
      load exNum "file,ab,a,b\nm,10,10,10\n".toList = .error (.err (.solverName 1 8)) :=
  ⟨⟨["ab".toList], [("m".toList, [.fin 10])]⟩, by decide +kernel, by decide +kernel,
    by decide +kernel, by decide +kernel, by decide +kernel⟩

/-- C85 does not hold for a file whose last line has no end: without solver, its last model is lost,
from the run and from the file. -/
theorem C85_unended_line_is_lost :
    (load exNum "file\nm\nn".toList).map Bench.models = .ok ["m".toList] ∧
    (tryBenchmark exNum exTxt exSorts exAttempt "file\nm\nn".toList "ef".toList).1 =
      "file,ef\nm,10\n".toList := by decide +kernel

/-- C85 does not hold for empty cells: the words move to the left, names of models become values,
and the three models `m`, `n` and `o` become the two models `m` and `1`. -/
theorem C85_empty_cells_move_the_values :
    (load exNum "file,ab,cd\nm,,20\nn,1,\no,,2\n".toList).map (fun b => (b.models,
        b.array.data.take 4)) =
      .ok (["m".toList, "1".toList], [.fin 20, .pinf, .pinf, .fin 2]) := by
  decide +kernel

/-- C85 does not hold for a cell of spaces: it becomes the value 0. -/
theorem C85_blank_cell_is_zero :
    (load exNum "file,ab\nm,  \n".toList).map (fun b => (b.models, b.array.data.take 1)) =
      .ok (["m".toList], [.fin 0]) := by decide +kernel

/-- The report of the run. -/
theorem exRun : (tryBenchmark exNum exTxt exSorts exAttempt (csv exTxt exTable) "ef".toList).2 =
    .ok ⟨2, some 90, [some 25, some 25],
      ⟨[[1, 2, 1], [2, 3, 1]], [.fin (3/2), .fin (5/2), .fin 1], [2, 3, 1]⟩,
      [[(.fin 10, .green), (.fin 20, .blue), (.fin 10, .green)],
        [(.fin 2, .blue), (.pinf, .plain), (.fin 1, .green)]]⟩ := by
  decide +kernel

/-- C86: the hypotheses are met. -/
example : denseRank .minimize [.fin (3/2), .fin (5/2), .fin 1] (.fin (5/2)) = 3 := by
  obtain ⟨_, h2, h3⟩ := C86_ranks_partial exSorts_ok exTable_ok (by decide)
    (fun r _ => by simp [exAttempt]) (by decide +kernel) exRun
  have := congrArg (fun l => l[1]?) h3
  simpa using this.symm

/-- C86 does not hold with a minus infinity in the file: equal values of a line have different
ranks. -/
theorem C86_minus_infinity_splits_a_rank :
    ∃ t : Table, t.Ok exNum exTxt ∧
      t.rows = [("m".toList, [.fin 10, .pinf, .ninf])] ∧
      ((tryBenchmark exNum exTxt exSorts (fun _ => .unsolved .minimize) (csv exTxt t)
        "ef".toList).2.map fun r => r.stats.ranks) = .ok [[1, 2, 3, 4]] ∧
      valueOf (.unsolved .minimize) = .pinf :=
  ⟨⟨["ab".toList, "cd".toList, "gh".toList], [("m".toList, [.fin 10, .pinf, .ninf])]⟩,
    by decide +kernel, rfl, by decide +kernel, rfl⟩

/-- C87: the hypotheses are met. -/
example : (exTable.rows.filter fun r => isSolved (exAttempt r.1)).length = 2 :=
  (C87_found_partial exTable_ok (fun r _ => by simp [exAttempt]) (fun r _ => rfl) exRun).symm

/-- C87 does not hold when a model has no solution: it is counted. -/
theorem C87_unsolved_is_found :
    ∃ rep, (tryBenchmark exNum exTxt exSorts (fun _ => .unsolved .minimize) (csv exTxt exTable)
      "ef".toList).2 = .ok rep ∧ rep.found = 2 ∧
      (exTable.rows.filter fun _ => isSolved (.unsolved .minimize)).length = 0 :=
  ⟨⟨2, none, [none, none], ⟨[[1, 2, 3], [1, 2, 2]], [.fin 1, .fin 2, .fin (5/2)], [1, 2, 3]⟩,
      [[(.fin 10, .green), (.fin 20, .blue), (.pinf, .plain)],
        [(.fin 2, .green), (.pinf, .plain), (.pinf, .plain)]]⟩,
    by decide +kernel, rfl, rfl⟩

/-- C88: the hypotheses are met. -/
example : mean ([(10, 10), (2, 1)].map fun p => percent p.1 p.2) = 25 := by
  have := C88_distance_partial exTable_ok (by decide) (fun r _ => by simp [exAttempt])
    (by decide +kernel) exRun 0 (by decide) [(10, 10), (2, 1)] (by decide +kernel) rfl
  simpa using this.symm

/-- C88 does not hold when a model is not solved by both: the only distance that can be computed, 50
percents, is printed as 25. -/
theorem C88_unsolved_halves_the_distance :
    (comparable (exTable.rows.map fun r => (r.2.getD 1 .pinf, valueOf (exAttempt r.1))) =
      [(20, 10)]) ∧ percent 20 10 = 50 ∧
    ∃ rep, (tryBenchmark exNum exTxt exSorts exAttempt (csv exTxt exTable) "ef".toList).2 =
      .ok rep ∧ rep.distances[1]? = some (some 25) :=
  ⟨by decide +kernel, by decide +kernel, _, exRun, rfl⟩

/-- C88: the "distance from the optimum" does not compare the results with those of the file, but
with the result of the first model: on two models with the same results as the only solver, it is 90
percents. -/
theorem C88_optimum_is_the_first_model :
    ∃ rep, (tryBenchmark exNum exTxt exSorts exAttempt
        (csv exTxt ⟨["ab".toList], [("m".toList, [.fin 10]), ("n".toList, [.fin 1])]⟩)
        "ef".toList).2 = .ok rep ∧ rep.distances = [some 0] ∧ rep.optimum = some 90 :=
  ⟨⟨2, some 90, [some 0], ⟨[[1, 1], [1, 1]], [.fin 1, .fin 1], [1, 1]⟩,
      [[(.fin 10, .green), (.fin 10, .green)], [(.fin 1, .green), (.fin 1, .green)]]⟩,
    by decide +kernel, rfl, rfl⟩

/-- C89: the hypotheses are met. -/
example : ∃ rep, (tryBenchmark exNum exTxt exSorts exAttempt (csv exTxt exTable)
    "ef".toList).2 = .ok rep :=
  C89_run_ends_partial exTable_ok (by decide) (by decide)
    (fun k h => by have := full_ge k; have h2 : exTable.rows.length = 2 := rfl; omega)
    (fun r _ => by simp [exAttempt]) (by decide +kernel) _ _

/-- 512 models: the hypotheses of `C89_full_array_is_undefined` are met. -/
example : ∃ w, (tryBenchmark exNum exTxt exSorts exAttempt
    (csv exTxt ⟨["ab".toList], List.replicate 512 ("m".toList, [.fin 10])⟩) "ef".toList).2 =
      .error (.fault (.ub w)) :=
  C89_full_array_is_undefined ⟨by decide +kernel,
      fun r hr => by rw [List.eq_of_mem_replicate hr]; decide +kernel,
      fun r hr => by rw [List.eq_of_mem_replicate hr]; rfl,
      fun r hr => by rw [List.eq_of_mem_replicate hr]; decide +kernel⟩ 0
    List.length_replicate (fun r _ => by simp [exAttempt]) _ _

/-- The file is nevertheless written: the first run on a list of models. -/
example : (∃ w, (tryBenchmark exNum exTxt exSorts exAttempt
    (csv exTxt ⟨[], [("m".toList, [])]⟩) "ef".toList).2 = .error (.fault (.ub w))) ∧
    (tryBenchmark exNum exTxt exSorts exAttempt
      (csv exTxt ⟨[], [("m".toList, [])]⟩) "ef".toList).1 = "file,ef\nm,10\n".toList :=
  ⟨C89_first_run_is_undefined (by decide +kernel) rfl (by decide) (fun r _ => by simp [exAttempt])
    _ _, by decide +kernel⟩

/-- C119: the hypotheses are met, and a maximization shows its best result in blue. -/
example : (∀ r ∈ exTable.rows, ∀ q, .fin q ∈ r.2 ++ [valueOf (exAttempt r.1)] → |q| ≤ doubleMax) ∧
    ((tryBenchmark exNum exTxt exSorts
      (fun m => .solved .maximize (if m = "m".toList then .fin 10 else .fin 1))
      (csv exTxt exTable) "ef".toList).2.toOption.map Report.lines) =
      some [[(.fin 10, .green), (.fin 20, .blue), (.fin 10, .green)],
        [(.fin 2, .blue), (.pinf, .plain), (.fin 1, .green)]] := by
  refine ⟨?_, by decide +kernel⟩
  intro r hr q hq
  have h20 : (20 : Rat) ≤ doubleMax := by decide +kernel
  have : q ∈ [10, 20, 2, 1] := by
    simp only [exTable, List.mem_cons, List.not_mem_nil, or_false] at hr
    rcases hr with rfl | rfl <;> simp [exAttempt, valueOf] at hq <;> simp <;> tauto
  simp only [List.mem_cons, List.not_mem_nil, or_false] at this
  rcases this with rfl | rfl | rfl | rfl <;> rw [abs_of_pos (by norm_num)] <;> linarith

end Bx.Benchmark
