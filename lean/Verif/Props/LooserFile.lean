import Verif.Spec.LooserFile
import Verif.Props.Looser
import Verif.Props.Grammar

/-! # C138 and C140: constraints written again in a file -/

namespace Bx.Looser

open Spec Parser

variable {ival : Token → Int} {implied : Op → Int → Int → Prop}

theorem Loosens.congr {imp : Int → Int → Prop} {φ ψ : Int → Int} {l l' : List Constr} (h : Loosens imp φ l l') :
    (∀ c ∈ l, φ c.id = ψ c.id) → Loosens imp ψ l l' := by
  induction h with
  | nil => exact fun _ => .nil
  | @new l l' c h ih =>
    intro hc
    have : renumber φ c = renumber ψ c := by
      unfold renumber
      rw [hc c (List.mem_append_right _ List.mem_cons_self)]
    rw [this]
    exact .new c (ih fun d hd => hc d (List.mem_append_left _ hd))
  | looser c t h hm he hv ih => exact fun hc => .looser c t (ih hc) hm he hv

/-- The constraints of the problem with the operator `op`, when the names are `N`. -/
def constrsOf (ival : Token → Int) (N : List Token) (op : Op) (l : List Con) : List Constr :=
  (l.zipIdx.filter fun x => x.1.op.op = op).map fun x => x.1.constr ival N x.2

theorem constrsOf_snoc (N : List Token) (op : Op) (l : List Con) (c : Con) : constrsOf ival N op (l ++ [c]) =
    constrsOf ival N op l ++ if c.op.op = op then [c.constr ival N l.length] else [] := by
  unfold constrsOf
  rw [List.zipIdx_append, List.filter_append, List.map_append]
  congr 1
  simp only [List.zipIdx_cons, List.zipIdx_nil, List.filter_cons, List.filter_nil, Nat.zero_add, decide_eq_true_eq]
  split <;> rfl

theorem id_lt {N : List Token} {op : Op} {l : List Con} {c : Constr} (h : c ∈ constrsOf ival N op l) :
    c.id < l.length := by
  unfold constrsOf at h
  obtain ⟨x, hx, rfl⟩ := List.mem_map.mp h
  have := List.mem_zipIdx (List.mem_filter.mp hx).1
  show ((x.2 : Nat) : Int) < _
  omega

theorem mem_constrsOf {N : List Token} {l : List Con} {c : Con} (h : c ∈ l) :
    ∃ i, c.constr ival N i ∈ constrsOf ival N c.op.op l := by
  obtain ⟨i, hi, rfl⟩ := List.getElem_of_mem h
  refine ⟨i, List.mem_map.mpr ⟨(l[i], i), List.mem_filter.mpr ⟨?_, by simp⟩, rfl⟩⟩
  exact List.mk_mem_zipIdx_iff_getElem?.mpr (List.getElem?_eq_getElem hi)

theorem loosens_constrs (N : List Token) {l l' : List Con} (h : LoosensCons ival implied l l') :
    ∃ φ : Int → Int, StrictMono φ ∧ (∀ i : Int, i < l.length → φ i < l'.length) ∧
      ∀ op, Loosens (implied op) φ (constrsOf ival N op l) (constrsOf ival N op l') := by
  induction h with
  | nil => exact ⟨id, strictMono_id, fun i hi => hi, fun op => .nil⟩
  | @new l l' c h ih =>
    obtain ⟨φ, h1, h2, h3⟩ := ih
    refine ⟨fun i => if i < l.length then φ i else l'.length + (i - l.length), ?_, ?_, ?_⟩
    · intro a b hab
      show ite _ _ _ < ite _ _ _
      split <;> split
      · exact h1 hab
      · rename_i ha hb
        have := h2 a ha
        omega
      · omega
      · omega
    · intro i hi
      show ite _ _ _ < _
      rw [List.length_append] at hi ⊢
      simp only [List.length_cons, List.length_nil] at hi ⊢
      split
      · rename_i h
        have := h2 i h
        omega
      · omega
    · intro op
      rw [constrsOf_snoc, constrsOf_snoc]
      have hc := Loosens.congr (h3 op)
        (ψ := fun i => if i < l.length then φ i else (l'.length : Int) + (i - l.length))
        (fun c hc => (if_pos (id_lt hc)).symm)
      split
      · have := Loosens.new (implied := implied op) (c.constr ival N l.length) hc
        have he : renumber (fun i => if i < l.length then φ i else (l'.length : Int) + (i - l.length))
            (c.constr ival N l.length) = c.constr ival N l'.length := by
          unfold renumber Con.constr
          simp
        rw [he] at this
        exact this
      · simpa using hc
  | @looser l l' c t h hc ho he hv ih =>
    obtain ⟨φ, h1, h2, h3⟩ := ih
    refine ⟨φ, h1, ?_, ?_⟩
    · intro i hi
      have := h2 i hi
      rw [List.length_append]
      simp only [List.length_cons, List.length_nil]
      omega
    · intro op
      rw [constrsOf_snoc]
      split
      · rename_i hop
        obtain ⟨i, hi⟩ := mem_constrsOf (ival := ival) (N := N) hc
        have hop' : c.op.op = op := ho.symm.trans hop
        rw [hop'] at hi hv
        refine .looser _ _ (h3 op) hi ?_ hv
        unfold Con.constr
        simp only [he]
      · simpa using h3 op

theorem mem_named {ts : List Term} {x : Token} : x ∈ firsts ((named ival ts).map Prod.fst) ↔ x ∈ ts.filterMap Term.name := by
  rw [mem_firsts]
  unfold named
  simp only [List.mem_map, List.mem_filterMap, Option.map_eq_some_iff]
  constructor
  · rintro ⟨_, ⟨t, ht, n, hn, rfl⟩, rfl⟩
    exact ⟨t, ht, hn⟩
  · rintro ⟨t, ht, hn⟩
    exact ⟨_, ⟨t, ht, x, hn, rfl⟩, rfl⟩

theorem loosens_names {l l' : List Con} (h : LoosensCons ival implied l l') (N : List Token) :
    addNames N (l'.flatMap fun c => c.terms.filterMap Term.name) =
      addNames N (l.flatMap fun c => c.terms.filterMap Term.name) := by
  induction h with
  | nil => rfl
  | new c h ih =>
    rw [List.flatMap_append, List.flatMap_append, addNames_append, addNames_append, ih]
  | @looser l l' c t h hc ho he hv ih =>
    rw [List.flatMap_append, addNames_append, ih]
    refine addNames_of_mem fun x hx => ?_
    have h1 : x ∈ firsts ((named ival c.terms).map Prod.fst) := by
      have h2 : x ∈ (collect (named ival t.terms)).map Prod.fst := by
        unfold collect
        rw [List.map_map]
        simp only [List.flatMap_cons, List.flatMap_nil, List.append_nil] at hx
        simpa [Function.comp_def] using mem_named.mpr hx
      rw [he] at h2
      unfold collect at h2
      rw [List.map_map] at h2
      simpa [Function.comp_def] using h2
    rw [mem_addNames]
    exact .inr (List.mem_flatMap.mpr ⟨c, hc, mem_named.mp h1⟩)

theorem ops_perm : ∀ Z : List (Con × Nat), (Z.filter (fun x => x.1.op.op = .equal) ++
    Z.filter (fun x => x.1.op.op = .greater) ++ Z.filter fun x => x.1.op.op = .less).Perm Z
  | [] => .refl _
  | a :: Z => by
    have ih := ops_perm Z
    cases h : a.1.op.op
    · simp only [List.filter_cons, h]
      exact ih.cons a
    · simp only [List.filter_cons, h]
      refine List.Perm.trans ?_ (ih.cons a)
      simp only [List.append_assoc]
      exact List.perm_middle
    · simp only [List.filter_cons, h]
      exact List.perm_middle.trans (ih.cons a)

theorem ids_distinct (N : List Token) (l : List Con) :
    DistinctNumbers (constrsOf ival N .equal l) (constrsOf ival N .greater l) (constrsOf ival N .less l) := by
  unfold DistinctNumbers constrsOf
  rw [← List.map_append, ← List.map_append, List.map_map]
  refine ((ops_perm l.zipIdx).map _).nodup_iff.mpr ?_
  have : (l.zipIdx.map (Constr.id ∘ fun x => x.1.constr ival N x.2)) =
      (l.zipIdx.map Prod.snd).map fun i : Nat => (i : Int) := by
    rw [List.map_map]
    rfl
  rw [this, List.zipIdx_map_snd]
  exact List.Nodup.map (fun a b h => by exact_mod_cast h) List.nodup_range'

/-- The two problems that the files denote. -/
theorem file_raw {val : Token → Rat} {f g : File} (hg : g = { f with cons := g.cons })
    (h : LoosensCons ival implied (f.cons.getD []) (g.cons.getD [])) :
    g.problem val ival = { f.problem val ival with eqs := (g.problem val ival).eqs
                                                   ges := (g.problem val ival).ges
                                                   les := (g.problem val ival).les } ∧
    ∃ φ : Int → Int, StrictMono φ ∧ Loosens (implied .equal) φ (f.problem val ival).eqs (g.problem val ival).eqs ∧
      Loosens (implied .greater) φ (f.problem val ival).ges (g.problem val ival).ges ∧
      Loosens (implied .less) φ (f.problem val ival).les (g.problem val ival).les := by
  have ho : g.objNames = f.objNames := by rw [hg]; rfl
  have hn : g.names = f.names := by
    unfold File.names
    rw [firsts_eq, firsts_eq, addNames_append, addNames_append, ho, loosens_names h]
  constructor
  · have e1 : g.type = f.type := by rw [hg]
    have e2 : g.linear = f.linear := by rw [hg]; rfl
    have e3 : g.quads = f.quads := by rw [hg]; rfl
    have e4 : g.bounds = f.bounds := by rw [hg]
    have e5 : g.binary = f.binary := by rw [hg]
    have e6 : g.general = f.general := by rw [hg]
    have e7 : g.varValue ival = f.varValue ival := by
      funext x
      unfold File.varValue
      rw [e4, e5, e6]
    unfold File.problem
    simp only [e1, e2, e3, e7, hn]
  · obtain ⟨φ, h1, -, h3⟩ := loosens_constrs f.names h
    have hc : ∀ op, g.constrs ival op = constrsOf ival f.names op (g.cons.getD []) := by
      intro op
      unfold File.constrs constrsOf
      rw [hn]
    refine ⟨φ, h1, ?_, ?_, ?_⟩
    · show Loosens _ _ _ (g.constrs ival .equal)
      rw [hc]
      exact h3 .equal
    · show Loosens _ _ _ (g.constrs ival .greater)
      rw [hc]
      exact h3 .greater
    · show Loosens _ _ _ (g.constrs ival .less)
      rw [hc]
      exact h3 .less

theorem toRaw_with {p q : PProblem} (h : q = { p with eqs := q.eqs, ges := q.ges, les := q.les }) {raw : RawProblem}
    (hr : p.toRaw = some raw) : q.toRaw = some { raw with eqs := q.eqs, ges := q.ges, les := q.les } := by
  unfold PProblem.toRaw at hr ⊢
  rw [h]
  simp only [Option.bind_eq_bind, Option.bind_eq_some_iff, Option.some.injEq] at hr ⊢
  obtain ⟨es, h1, qs, h2, v, h3, rfl⟩ := hr
  exact ⟨es, h1, qs, h2, v, h3, rfl⟩

theorem toRaw_lists {p : PProblem} {raw : RawProblem} (hr : p.toRaw = some raw) :
    raw.eqs = p.eqs ∧ raw.ges = p.ges ∧ raw.les = p.les := by
  unfold PProblem.toRaw at hr
  simp only [Option.bind_eq_bind, Option.bind_eq_some_iff, Option.some.injEq] at hr
  obtain ⟨es, h1, qs, h2, v, h3, rfl⟩ := hr
  exact ⟨rfl, rfl, rfl⟩

theorem repeats_of {φ : Int → Int} {l l' : List Constr} (h : Loosens (fun v w => w = v) φ l l') : Repeats φ l l' := by
  induction h with
  | nil => exact .nil
  | new c _ ih => exact .new c ih
  | looser c t _ hc he hv ih => exact .again c t ih hc he hv

section
variable (scan : Token → Option Params.D) (hs : ∀ t, Reserved t → scan t = none) (val : Token → Rat) (ival : Token → Int)
  {f g : File} (hg : g = { f with cons := g.cons }) (okf : FileOk scan val ival f) (okg : FileOk scan val ival g)
  (text text' : List Char) (h : Denotes text f.tokens) (h' : Denotes text' g.tokens)
  (fuel : Nat) (lf : f.tokens.length < fuel) (lg : g.tokens.length < fuel)
include hs hg okf okg h h' lf lg

/-- C140 for a file: a file with looser copies of its constraints, whatever its layout, is read as the problem of the file
without them, with looser copies of its constraints. -/
theorem C140_file (hl : LoosensCons ival Weaker (f.cons.getD []) (g.cons.getD [])) :
    ∃ p p', makeProblem scan fuel text = .ok p ∧ makeProblem scan fuel text' = .ok p' ∧
      ∀ raw, p.toRaw = some raw → DistinctNumbers raw.eqs raw.ges raw.les ∧
        ∃ raw' φ, p'.toRaw = some raw' ∧ StrictMono φ ∧ LoosensRaw φ raw raw' := by
  refine ⟨_, _, C68_read_as_written_partial scan hs val ival f okf text h fuel lf,
    C68_read_as_written_partial scan hs val ival g okg text' h' fuel lg, ?_⟩
  obtain ⟨h1, φ, h2, h3, h4, h5⟩ := file_raw (val := val) hg hl
  intro raw hraw
  obtain ⟨e1, e2, e3⟩ := toRaw_lists hraw
  rw [e1, e2, e3]
  refine ⟨ids_distinct f.names (f.cons.getD []), _, φ, toRaw_with h1 hraw, h2, rfl, rfl, rfl, rfl, ?_, ?_, ?_⟩
  · rw [e1]; exact h3
  · rw [e2]; exact h4
  · rw [e3]; exact h5

/-- C138 for a file: a file where constraints are written several times, whatever its layout, is read as the problem of the
file where they are written once, with constraints written several times. -/
theorem C138_file (hl : LoosensCons ival (fun _ v w => w = v) (f.cons.getD []) (g.cons.getD [])) :
    ∃ p p', makeProblem scan fuel text = .ok p ∧ makeProblem scan fuel text' = .ok p' ∧
      ∀ raw, p.toRaw = some raw → DistinctNumbers raw.eqs raw.ges raw.les ∧
        ∃ raw' φ, p'.toRaw = some raw' ∧ StrictMono φ ∧ RepeatsRaw φ raw raw' := by
  refine ⟨_, _, C68_read_as_written_partial scan hs val ival f okf text h fuel lf,
    C68_read_as_written_partial scan hs val ival g okg text' h' fuel lg, ?_⟩
  obtain ⟨h1, φ, h2, h3, h4, h5⟩ := file_raw (val := val) hg hl
  intro raw hraw
  obtain ⟨e1, e2, e3⟩ := toRaw_lists hraw
  rw [e1, e2, e3]
  refine ⟨ids_distinct f.names (f.cons.getD []), _, φ, toRaw_with h1 hraw, h2, rfl, rfl, rfl, rfl, ?_, ?_, ?_⟩
  · rw [e1]; exact repeats_of h3
  · rw [e2]; exact repeats_of h4
  · rw [e3]; exact repeats_of h5

omit hs okf okg h h' lf lg in
/-- A problem with an infinite number is so with and without the copies. -/
theorem toRaw_copies {implied : Op → Int → Int → Prop} (hl : LoosensCons ival implied (f.cons.getD []) (g.cons.getD []))
    (hr : (f.problem val ival).toRaw = none) : (g.problem val ival).toRaw = none := by
  have hq := (file_raw (val := val) hg hl).1
  cases hr' : (g.problem val ival).toRaw with
  | none => rfl
  | some raw' =>
    have := toRaw_with (p := g.problem val ival) (q := f.problem val ival) (by rw [hq]) hr'
    rw [hr] at this
    cases this

/-- From the text to what is computed on the problem, for what a looser copy does not change. -/
theorem file_looser {β : Type} (hl : LoosensCons ival Weaker (f.cons.getD []) (g.cons.getD [])) (F : RawProblem → β)
    (hF : ∀ φ raw raw', StrictMono φ → LoosensRaw φ raw raw' → DistinctNumbers raw.eqs raw.ges raw.les → F raw' = F raw) :
    ∃ p p', makeProblem scan fuel text = .ok p ∧ makeProblem scan fuel text' = .ok p' ∧
      p'.toRaw.map F = p.toRaw.map F := by
  obtain ⟨p, p', h1, h2, h3⟩ := C140_file scan hs val ival hg okf okg text text' h h' fuel lf lg hl
  refine ⟨p, p', h1, h2, ?_⟩
  cases hr : p.toRaw with
  | none =>
    obtain rfl := Except.ok.inj ((C68_read_as_written_partial scan hs val ival f okf text h fuel lf).symm.trans h1)
    obtain rfl := Except.ok.inj ((C68_read_as_written_partial scan hs val ival g okg text' h' fuel lg).symm.trans h2)
    rw [toRaw_copies val ival hg hl hr]
  | some raw =>
    obtain ⟨hd, raw', φ, h4, h5, h6⟩ := h3 raw hr
    rw [h4, Option.map_some, Option.map_some, hF φ raw raw' h5 h6 hd]

/-- From the text to what is computed on the problem, for what a copy does not change. -/
theorem file_repeated {β : Type} (hl : LoosensCons ival (fun _ v w => w = v) (f.cons.getD []) (g.cons.getD []))
    (F : RawProblem → β)
    (hF : ∀ φ raw raw', StrictMono φ → RepeatsRaw φ raw raw' → DistinctNumbers raw.eqs raw.ges raw.les → F raw' = F raw) :
    ∃ p p', makeProblem scan fuel text = .ok p ∧ makeProblem scan fuel text' = .ok p' ∧
      p'.toRaw.map F = p.toRaw.map F := by
  obtain ⟨p, p', h1, h2, h3⟩ := C138_file scan hs val ival hg okf okg text text' h h' fuel lf lg hl
  refine ⟨p, p', h1, h2, ?_⟩
  cases hr : p.toRaw with
  | none =>
    obtain rfl := Except.ok.inj ((C68_read_as_written_partial scan hs val ival f okf text h fuel lf).symm.trans h1)
    obtain rfl := Except.ok.inj ((C68_read_as_written_partial scan hs val ival g okg text' h' fuel lg).symm.trans h2)
    rw [toRaw_copies val ival hg hl hr]
  | some raw =>
    obtain ⟨hd, raw', φ, h4, h5, h6⟩ := h3 raw hr
    rw [h4, Option.map_some, Option.map_some, hF φ raw raw' h5 h6 hd]

/-- C138 from the text to the result of `solve`. -/
theorem C138_file_solve {ρ : Type} (hl : LoosensCons ival (fun _ v w => w = v) (f.cons.getD []) (g.cons.getD []))
    (upd : Dispatch.Engine → Itm.Slv → ρ → Nat → Assign → Outcome Assign) (w : Dispatch.World ρ) (hw : w.sorts.Ok)
    (c : Option Dispatch.Ctx) :
    ∃ p p', makeProblem scan fuel text = .ok p ∧ makeProblem scan fuel text' = .ok p' ∧
      p'.toRaw.map (Dispatch.solve (Dispatch.execute upd w) c) = p.toRaw.map (Dispatch.solve (Dispatch.execute upd w) c) :=
  file_repeated scan hs val ival hg okf okg text text' h h' fuel lf lg hl _
    fun _ _ _ h5 h6 hd => Twice.C138_solve upd w hw h5 c h6 hd

/-- C138 from the text to the result of `optimize`, in all the modes. -/
theorem C138_file_optimize {ρ : Type} (hl : LoosensCons ival (fun _ v w => w = v) (f.cons.getD []) (g.cons.getD []))
    (upd : Dispatch.Engine → Itm.Slv → ρ → Nat → Assign → Outcome Assign) (s : Dispatch.Setting ρ)
    (hw : ∀ t k, (s.world t k).sorts.Ok) (c : Dispatch.Ctx) :
    ∃ p p', makeProblem scan fuel text = .ok p ∧ makeProblem scan fuel text' = .ok p' ∧
      p'.toRaw.map (Dispatch.optimize (Dispatch.execute upd s.untuned) (s.tuners upd c) (some c)) =
        p.toRaw.map (Dispatch.optimize (Dispatch.execute upd s.untuned) (s.tuners upd c) (some c)) :=
  file_repeated scan hs val ival hg okf okg text text' h h' fuel lf lg hl _
    fun _ _ _ h5 h6 hd => Twice.C138_optimize upd s hw h5 c h6 hd

/-- C140 from the text to the result of `solve` without preprocessing.  Missing: the preprocessing. -/
theorem C140_file_solve_partial {ρ : Type} (hl : LoosensCons ival Weaker (f.cons.getD []) (g.cons.getD []))
    (upd : Dispatch.Engine → Itm.Slv → ρ → Nat → Assign → Outcome Assign) (w : Dispatch.World ρ) (hw : w.sorts.Ok)
    (c : Dispatch.Ctx) (hc : c.preprocessing = false) :
    ∃ p p', makeProblem scan fuel text = .ok p ∧ makeProblem scan fuel text' = .ok p' ∧
      p'.toRaw.map (Dispatch.solve (Dispatch.execute upd w) (some c)) =
        p.toRaw.map (Dispatch.solve (Dispatch.execute upd w) (some c)) :=
  file_looser scan hs val ival hg okf okg text text' h h' fuel lf lg hl _
    fun _ _ _ h5 h6 hd => C140_solve_partial upd w hw h5 c hc h6 hd

/-- C140 from the text to the result of `optimize` with any number of workers, without preprocessing. -/
theorem C140_file_workers_partial {ρ : Type} (hl : LoosensCons ival Weaker (f.cons.getD []) (g.cons.getD []))
    (upd : Itm.Slv → ρ → Nat → Assign → Outcome Assign) {sorts : Merge.Sorts} (hw : sorts.Ok) (po : Merge.Order)
    (thread : Int) (hardware : Nat) (ch : Optimizer.Crew ρ) (p : Itm.Params) (st : Optimizer.StorageType) :
    ∃ q q', makeProblem scan fuel text = .ok q ∧ makeProblem scan fuel text' = .ok q' ∧
      q'.toRaw.map (Optimizer.crewOptimize upd sorts po false thread hardware ch p st) =
        q.toRaw.map (Optimizer.crewOptimize upd sorts po false thread hardware ch p st) :=
  file_looser scan hs val ival hg okf okg text text' h h' fuel lf lg hl _
    fun _ _ _ h5 h6 hd => C140_workers_partial upd hw h5 po thread hardware ch p st h6 hd

end

/-! ## Example -/

/-- `exFile` with `c1` written again with its terms grouped in another way, and `c2` written again with the value `-w`. -/
def exCopies (w : String) : File :=
  { exFile with
    cons := some (exFile.cons.getD [] ++ [
      ⟨some "again".toList, [tm none "2" "x1", tm (some false) none "x2", tm (some true) none "x1",
        tm (some false) none "x3"], .le, ⟨none, "2".toList⟩⟩,
      ⟨none, [tm none none "x2", tm (some true) "2" "x3", tm (some false) none "x4"],
        .ge, ⟨some true, w.toList⟩⟩]) }

theorem exCopies_looser {implied : Op → Int → Int → Prop} {w : String}
    (h1 : implied .less (Number.value scanInt ⟨none, "2".toList⟩) (Number.value scanInt ⟨none, "2".toList⟩))
    (h2 : implied .greater (Number.value scanInt ⟨some true, "1".toList⟩) (Number.value scanInt ⟨some true, w.toList⟩)) :
    LoosensCons scanInt implied (exFile.cons.getD []) ((exCopies w).cons.getD []) := by
  have hall : ∀ l : List Con, LoosensCons scanInt implied l l := by
    intro l
    induction l using List.reverseRecOn with
    | nil => exact .nil
    | append_singleton l c ih => exact .new c ih
  have e : (exCopies w).cons.getD [] = (exFile.cons.getD [] ++ [_]) ++ [_] := rfl
  rw [e]
  refine .looser ((exFile.cons.getD [])[1]) _ (.looser ((exFile.cons.getD [])[0]) _ (hall _) (List.getElem_mem _) rfl
    (by decide +kernel) ?_) (List.getElem_mem _) rfl rfl ?_
  · exact h1
  · exact h2

/-- The hypotheses of `C140_file` hold of the file with a looser copy, `c2` with -3, and those of `C138_file` of the file
with copies. -/
example : FileOk scanf scanVal scanInt (exCopies "3") ∧ FileOk scanf scanVal scanInt (exCopies "1") ∧
    LoosensCons scanInt Weaker (exFile.cons.getD []) ((exCopies "3").cons.getD []) ∧
    LoosensCons scanInt (fun _ v w => w = v) (exFile.cons.getD []) ((exCopies "1").cons.getD []) :=
  ⟨by decide +kernel, by decide +kernel, exCopies_looser (le_refl (_ : Int))
      (show (_ : Int) ≤ _ by decide +kernel), exCopies_looser rfl rfl⟩

end Bx.Looser
