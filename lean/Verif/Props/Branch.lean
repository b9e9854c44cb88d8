import Verif.Model.Branch
import Verif.Spec.Branch
import Verif.Props.Preprocess
import Mathlib.Data.List.InsertIdx

/-!
# C49: `optimize` in branch mode
-/

namespace Bx.Branch

open Preprocess

/-! ## An affected variable is removed -/

theorem step_vars {pb : Problem} {st st' : St} {p : Kind × Nat} (h : Preprocess.step pb st p = .ok st') :
    st'.vars = st.vars := by
  obtain ⟨k, i⟩ := p
  unfold Preprocess.step at h
  simp only at h
  split at h
  · rw [← Except.ok.inj h]
  · split at h
    · split at h
      · cases h
      · obtain ⟨v, _, h⟩ := bind_eq_ok.1 h
        rw [← Except.ok.inj h]
    · rw [← Except.ok.inj h]

theorem steps_vars {pb : Problem} : ∀ (l : List (Kind × Nat)) {st st' : St},
    l.foldlM (Preprocess.step pb) st = .ok st' → st'.vars = st.vars
  | [], st, st', h => by
    rw [List.foldlM_nil] at h
    exact (Except.ok.inj h) ▸ rfl
  | p :: ps, st, st', h => by
    rw [List.foldlM_cons] at h
    obtain ⟨s1, h1, h⟩ := bind_eq_ok.1 h
    rw [steps_vars ps h, step_vars h1]

theorem varsEmplace_keeps {vars : List (Nat × Bool)} {i v : Nat} {b : Bool}
    (h : (vars.lookup v).isSome = true) : ((varsEmplace vars i b).lookup v).isSome = true := by
  unfold varsEmplace
  split
  · exact h
  · rw [List.lookup_cons]
    split
    · rfl
    · exact h

theorem varsEmplace_adds (vars : List (Nat × Bool)) (i : Nat) (b : Bool) :
    ((varsEmplace vars i b).lookup i).isSome = true := by
  unfold varsEmplace
  split
  · rename_i h
    rw [h]; rfl
  · simp

theorem affects_keeps {pb : Problem} {v : Nat} : ∀ (fuel : Nat) (st st' : St),
    affects pb fuel st = .ok st' →
    ((st.vars.lookup v).isSome = true ∨ ∃ b rest, st.lifo = (v, b) :: rest) →
    (st'.vars.lookup v).isSome = true
  | fuel, st, st', h, hv => by
    unfold affects at h
    split at h
    · rename_i hl
      rw [← Except.ok.inj h]
      rcases hv with hv | ⟨b, rest, hv⟩
      · exact hv
      · rw [hl] at hv; cases hv
    · rename_i top rest hl
      cases fuel with
      | zero => cases h
      | succ fuel =>
        obtain ⟨s2, h2, h⟩ := bind_eq_ok.1 h
        refine affects_keeps fuel s2 st' h (Or.inl ?_)
        rw [steps_vars _ h2]
        rcases hv with hv | ⟨b, rest', hv⟩
        · exact varsEmplace_keeps hv
        · rw [hl] at hv
          obtain ⟨rfl, _⟩ := List.cons.inj hv
          exact varsEmplace_adds ..

theorem removeUnused_keeps {pb : Problem} {v : Nat} {st : St}
    (h : (st.vars.lookup v).isSome = true) : ((removeUnused pb st).vars.lookup v).isSome = true := by
  unfold removeUnused
  generalize List.range pb.values.length = l
  induction l generalizing st with
  | nil => exact h
  | cons i l ih =>
    rw [List.foldl_cons]
    apply ih
    split
    · rw [List.lookup_cons]
      split
      · rfl
      · exact h
    · exact h

theorem varsCopy_le {pb : Problem} {vars : List (Nat × Bool)} : ∀ (l : List VarValue) (i : Nat)
    (r : List String × List VarValue × List String × List Int), varsCopy pb vars l i = .ok r →
    r.1.length = r.2.1.length ∧ r.2.1.length ≤ l.length ∧
    ∀ v, i ≤ v → v < i + l.length → (vars.lookup v).isSome = true → r.2.1.length < l.length
  | [], i, r, h => by
    rw [← Except.ok.inj h]
    exact ⟨rfl, Nat.le_refl _, fun v h1 h2 => absurd h2 (by simp; omega)⟩
  | w :: ws, i, r, h => by
    unfold varsCopy at h
    split at h
    · cases h
    · obtain ⟨⟨ns, vs, an, av⟩, h1, h⟩ := bind_eq_ok.1 h
      obtain ⟨k1, k2, k3⟩ := varsCopy_le ws (i + 1) _ h1
      simp only at k1 k2 k3 h
      split at h
      · rename_i hl
        rw [← Except.ok.inj h]
        refine ⟨by simpa using k1, by simpa using k2, fun v q1 q2 q3 => ?_⟩
        rcases Nat.eq_or_lt_of_le q1 with rfl | q1
        · rw [hl] at q3; cases q3
        · have := k3 v q1 (by simp at q2; omega) q3
          simpa using this
      · rw [← Except.ok.inj h]
        refine ⟨k1, Nat.le_succ_of_le k2, fun v _ _ _ => ?_⟩
        simp only [List.length_cons]
        omega

/-- The problem that `affect` returns has fewer variables, and as many names as variables. -/
theorem affect_shrinks {pb red : Problem} {v : Nat} {b : Bool} (h : affect pb v b = .ok red) :
    red.values.length < pb.values.length ∧ red.names.length = red.values.length := by
  unfold affect at h
  obtain ⟨_, hc, h⟩ := bind_eq_ok.1 h
  have hv : v < pb.values.length := by
    unfold check at hc
    split at hc
    · rename_i hd; simpa using hd
    · cases hc
  split at h
  · cases h
  · obtain ⟨s1, h1, h⟩ := bind_eq_ok.1 h
    have k1 := affects_keeps (v := v) _ _ _ h1 (Or.inr ⟨b, [], rfl⟩)
    unfold finish at h
    obtain ⟨s2, h2, h⟩ := bind_eq_ok.1 h
    have k2 := affects_keeps (v := v) _ _ _ h2 (Or.inl (removeUnused_keeps k1))
    unfold makeProblem at h
    obtain ⟨_, _, h⟩ := bind_eq_ok.1 h
    obtain ⟨_, _, h⟩ := bind_eq_ok.1 h
    obtain ⟨⟨ns, vs, an, av⟩, h3, h⟩ := bind_eq_ok.1 h
    obtain ⟨_, _, h⟩ := bind_eq_ok.1 h
    obtain ⟨_, _, h⟩ := bind_eq_ok.1 h
    obtain ⟨_, _, h⟩ := bind_eq_ok.1 h
    obtain ⟨_, _, h⟩ := bind_eq_ok.1 h
    obtain ⟨_, _, h⟩ := bind_eq_ok.1 h
    obtain ⟨q1, _, q3⟩ := varsCopy_le _ _ _ h3
    rw [← Except.ok.inj h]
    exact ⟨q3 v (Nat.zero_le _) (by simpa using hv) k2, q1⟩

/-! ## The jobs -/

/-- What remains to be split, in number of turns. -/
def weight (jobs : List Node) : Nat := (jobs.map fun n => 3 ^ n.problem.values.length).sum

theorem emplace_perm (n : Node) (jobs : List Node) (pos : Nat) :
    (emplace n jobs pos).1.Perm (n :: jobs) :=
  List.perm_insertIdx n jobs List.findIdx_le_length

theorem emplace_get (n it : Node) (jobs : List Node) (pos : Nat) (h : jobs[pos]? = some it) :
    (emplace n jobs pos).1[(emplace n jobs pos).2]? = some it := by
  have hi : jobs.findIdx (nodeLess n) ≤ jobs.length := List.findIdx_le_length
  unfold emplace
  simp only
  split
  · rename_i hp
    rw [List.getElem?_insertIdx_of_gt (by omega)]
    simpa using h
  · rename_i hp
    rw [List.getElem?_insertIdx_of_lt (by omega)]
    exact h

/-- A turn of the loop: one more job, and less to split. -/
theorem body_spec {inner : Nat → Problem → Outcome Inner} {annoying calls : Nat}
    {jobs jobs' : List Node} {best best' : Inner}
    (h : body inner annoying calls jobs best = .ok (jobs', best')) :
    jobs'.length = jobs.length + 1 ∧ weight jobs' < weight jobs := by
  unfold body at h
  split at h
  · cases h
  · rename_i it rest
    split at h
    · cases h
    · obtain ⟨⟨one, zero⟩, h1, h⟩ := bind_eq_ok.1 h
      obtain ⟨ret0, h2, h⟩ := bind_eq_ok.1 h
      obtain ⟨ret1, h3, h⟩ := bind_eq_ok.1 h
      have e : (emplace (node zero ret1) (emplace (node one ret0) (it :: rest) 0).1
          (emplace (node one ret0) (it :: rest) 0).2).1.eraseIdx
        (emplace (node zero ret1) (emplace (node one ret0) (it :: rest) 0).1
          (emplace (node one ret0) (it :: rest) 0).2).2 = jobs' := (Prod.mk.inj (Except.ok.inj h)).1
      generalize he1 : emplace (node one ret0) (it :: rest) 0 = e1 at e
      generalize he2 : emplace (node zero ret1) e1.1 e1.2 = e2 at e
      have p1 : e1.1.Perm (node one ret0 :: it :: rest) := by
        rw [← he1]; exact emplace_perm ..
      have p2 : e2.1.Perm (node zero ret1 :: node one ret0 :: it :: rest) := by
        rw [← he2]; exact (emplace_perm ..).trans (p1.cons _)
      have g1 : e1.1[e1.2]? = some it := by
        rw [← he1]; exact emplace_get _ _ _ _ rfl
      have g2 : e2.1[e2.2]? = some it := by
        rw [← he2]; exact emplace_get _ _ _ _ g1
      obtain ⟨hlt, hget⟩ := List.getElem?_eq_some_iff.1 g2
      have p3 : (it :: e2.1.eraseIdx e2.2).Perm (node zero ret1 :: node one ret0 :: it :: rest) := by
        have := (List.getElem_cons_eraseIdx_perm hlt).trans p2
        rw [hget] at this
        exact this
      unfold Preprocess.split at h1
      obtain ⟨a, a1, h1⟩ := bind_eq_ok.1 h1
      obtain ⟨b, b1, h1⟩ := bind_eq_ok.1 h1
      obtain ⟨rfl, rfl⟩ := Prod.mk.inj (Except.ok.inj h1)
      have la := (affect_shrinks a1).1
      have lb := (affect_shrinks b1).1
      rw [← e]
      constructor
      · have := p3.length_eq
        simpa using this
      · have hs := (p3.map fun n => 3 ^ n.problem.values.length).sum_nat
        simp only [List.map_cons, List.sum_cons, node] at hs
        unfold weight
        simp only [List.map_cons, List.sum_cons]
        obtain ⟨m, hm⟩ : ∃ m, it.problem.values.length = m + 1 := ⟨_, (Nat.sub_add_cancel
          (Nat.lt_of_le_of_lt (Nat.zero_le _) la)).symm⟩
        have l1 : 3 ^ a.values.length ≤ 3 ^ m := Nat.pow_le_pow_right (by decide) (by omega)
        have l2 : 3 ^ b.values.length ≤ 3 ^ m := Nat.pow_le_pow_right (by decide) (by omega)
        have l3 : 3 ^ it.problem.values.length = 3 * 3 ^ m := by rw [hm, Nat.pow_succ, Nat.mul_comm]
        have l4 : 0 < 3 ^ m := Nat.pow_pos (by decide)
        omega

theorem loop_never {inner : Nat → Problem → Outcome Inner} {annoying : Nat} :
    ∀ (steps calls : Nat) (jobs : List Node) (best r : Inner),
    loop inner annoying steps calls jobs best ≠ some (.ok r)
  | 0, _, _, _, _ => by simp [loop]
  | steps + 1, calls, jobs, best, r => by
    unfold loop
    split
    · simp
    · rename_i jobs' best' hb
      have := (body_spec hb).1
      have hne : jobs'.isEmpty = false := by
        cases jobs' with
        | nil => simp at this
        | cons => rfl
      rw [hne]
      exact loop_never steps _ _ _ r

theorem loop_ends {inner : Nat → Problem → Outcome Inner} {annoying : Nat} :
    ∀ (steps calls : Nat) (jobs : List Node) (best : Inner), weight jobs < steps →
    ∃ f, loop inner annoying steps calls jobs best = some (.error f)
  | 0, _, _, _, h => absurd h (Nat.not_lt_zero _)
  | steps + 1, calls, jobs, best, h => by
    unfold loop
    split
    · exact ⟨_, rfl⟩
    · rename_i jobs' best' hb
      have hl := (body_spec hb).1
      have hw := (body_spec hb).2
      have hne : jobs'.isEmpty = false := by
        cases jobs' with
        | nil => simp at hl
        | cons => rfl
      rw [hne]
      exact loop_ends steps _ _ _ (by omega)

/-! ## C49 -/

/-- C49 does not hold, for any problem and any inner optimizer: in branch mode `optimize` never
returns a result.  Each turn adds two jobs and removes one, so the list of jobs is never empty. -/
theorem C49_never_returns (inner : Nat → Problem → Outcome Inner) (pb : Problem) (steps : Nat)
    (r : Inner) : optimize inner steps pb ≠ some (.ok r) := by
  unfold optimize
  split
  · simp
  · exact loop_never steps _ _ _ r

/-- C49, what is left of it: the run ends, by an abort, an exception or a read outside a vector,
after at most `3 ^ n` turns for `n` variables. -/
theorem C49_ends_with_an_error_partial (inner : Nat → Problem → Outcome Inner) (pb : Problem) :
    ∃ f, optimize inner (3 ^ pb.values.length + 1) pb = some (.error f) := by
  unfold optimize
  split
  · exact ⟨_, rfl⟩
  · refine loop_ends _ _ _ _ ?_
    simp [weight, node]

/-- An inner optimizer that always finds a solution and that, like the optimizers of the library,
does not set `annoying_variable`. -/
def exInner : Nat → Problem → Outcome Inner := fun calls _ => .ok { success := true, last := calls }

/-- The reduced problem of the examples of the preprocessor: two turns are made, then the problem
to split has no variable. -/
example : optimize exInner 2 exRed = none ∧
    optimize exInner 3 exRed = some (.error (.ub "vars.names[it->annoying_variable]")) :=
  ⟨by decide +kernel, by decide +kernel⟩

/-! ## What a turn does -/

open Bx.Spec.Branch in
theorem isBest_iff (t : ObjType) (a b : Inner) : isBest a b t = true ↔ Better t a b := by
  unfold isBest Better BetterValue
  cases a.success <;> cases b.success <;> cases t <;> simp

open Bx.Spec.Branch in
theorem nodeLess_iff {t : ObjType} {a : Node} (ha : a.problem.type = t) (b : Node) :
    nodeLess a b = true ↔ Before t a b := by
  unfold nodeLess Before BetterValue
  rw [ha]
  by_cases h1 : a.remaining = 0 <;> by_cases h2 : b.remaining = 0 <;> cases t <;> simp [h1, h2]

open Bx.Spec.Branch in
theorem better_irrefl {t : ObjType} (a : Inner) : ¬ Better t a a := by
  unfold Better BetterValue
  cases a.success <;> cases t <;> simp

open Bx.Spec.Branch in
theorem better_asymm {t : ObjType} {a b : Inner} (h : Better t a b) : ¬ Better t b a := by
  unfold Better BetterValue at *
  cases ha : a.success <;> cases hb : b.success <;> cases t <;> simp_all <;>
    first | exact Rat.le_of_lt h | exact Int.le_of_lt h

open Bx.Spec.Branch in
theorem better_cotrans {t : ObjType} {a b c : Inner} (h : Better t a b) (h' : ¬ Better t c b) :
    Better t a c := by
  unfold Better BetterValue at *
  cases ha : a.success <;> cases hb : b.success <;> cases hc : c.success <;> cases t <;>
    simp_all <;>
    first
      | exact lt_of_lt_of_le h h'
      | exact lt_of_le_of_lt h' h

open Bx.Spec.Branch in
theorem before_cotrans {t : ObjType} {a b c : Node} (h : Before t a b) (h' : ¬ Before t c b) :
    Before t a c := by
  unfold Before BetterValue at *
  by_cases ha : a.remaining = 0 <;> by_cases hb : b.remaining = 0 <;>
    by_cases hc : c.remaining = 0 <;> cases t <;> simp_all <;>
    first
      | exact lt_of_lt_of_le h h'
      | exact lt_of_le_of_lt h' h

open Bx.Spec.Branch in
theorem before_asymm {t : ObjType} {a b : Node} (h : Before t a b) : ¬ Before t b a := by
  unfold Before BetterValue at *
  by_cases ha : a.remaining = 0 <;> by_cases hb : b.remaining = 0 <;> cases t <;> simp_all <;>
    first | exact Rat.le_of_lt h | exact Int.le_of_lt h

open Bx.Spec.Branch in
theorem emplace_queue {t : ObjType} {n : Node} (hn : n.problem.type = t) {jobs : List Node}
    (h : Queue t jobs) (pos : Nat) : Queue t (emplace n jobs pos).1 := by
  refine ⟨fun m hm => ?_, ?_⟩
  · rcases List.mem_cons.1 ((emplace_perm n jobs pos).mem_iff.1 hm) with rfl | hm
    · exact hn
    · exact h.1 m hm
  · have h2 := h.2
    clear h
    unfold emplace
    simp only
    clear pos
    induction jobs with
    | nil => simp
    | cons m jobs ih =>
      obtain ⟨k1, k2⟩ := List.pairwise_cons.1 h2
      rw [List.findIdx_cons]
      cases hl : nodeLess n m with
      | true =>
        have hb := (nodeLess_iff hn m).1 hl
        simp only [cond_true, List.insertIdx_zero]
        refine List.pairwise_cons.2 ⟨fun x hx => ?_, h2⟩
        rcases List.mem_cons.1 hx with rfl | hx
        · exact before_asymm hb
        · intro hxn
          exact before_asymm (before_cotrans hb (k1 x hx)) hxn
      | false =>
        simp only [cond_false, List.insertIdx_succ_cons]
        refine List.pairwise_cons.2 ⟨fun x hx => ?_, ih k2⟩
        rcases List.mem_cons.1 ((emplace_perm n jobs 0).mem_iff.1 hx) with rfl | hx
        · intro hb
          rw [(nodeLess_iff hn m).2 hb] at hl
          cases hl
        · exact k1 x hx

theorem affect_type {pb red : Problem} {v : Nat} {b : Bool} (h : affect pb v b = .ok red) :
    red.type = pb.type := by
  unfold affect at h
  obtain ⟨_, _, h⟩ := bind_eq_ok.1 h
  split at h
  · cases h
  · obtain ⟨s1, _, h⟩ := bind_eq_ok.1 h
    unfold finish at h
    obtain ⟨s2, _, h⟩ := bind_eq_ok.1 h
    unfold makeProblem at h
    obtain ⟨_, _, h⟩ := bind_eq_ok.1 h
    obtain ⟨_, _, h⟩ := bind_eq_ok.1 h
    obtain ⟨⟨ns, vs, an, av⟩, _, h⟩ := bind_eq_ok.1 h
    obtain ⟨_, _, h⟩ := bind_eq_ok.1 h
    obtain ⟨_, _, h⟩ := bind_eq_ok.1 h
    obtain ⟨_, _, h⟩ := bind_eq_ok.1 h
    obtain ⟨_, _, h⟩ := bind_eq_ok.1 h
    obtain ⟨_, _, h⟩ := bind_eq_ok.1 h
    rw [← Except.ok.inj h]

open Bx.Spec.Branch in
theorem best_of_three {t : ObjType} (a b c : Inner) :
    let m := if isBest b a t then b else a
    let m' := if isBest c m t then c else m
    m' ∈ [a, b, c] ∧ ∀ r ∈ [a, b, c], ¬ Better t r m' := by
  intro m m'
  have hm : m ∈ [a, b] ∧ ∀ r ∈ [a, b], ¬ Better t r m := by
    by_cases h : isBest b a t = true
    · have hb := (isBest_iff t b a).1 h
      have : m = b := if_pos h
      rw [this]
      refine ⟨by simp, fun r hr => ?_⟩
      rcases List.mem_cons.1 hr with rfl | hr
      · exact better_asymm hb
      · rw [List.mem_singleton.1 hr]; exact better_irrefl b
    · have : m = a := if_neg h
      rw [this]
      refine ⟨by simp, fun r hr => ?_⟩
      rcases List.mem_cons.1 hr with rfl | hr
      · exact better_irrefl r
      · rw [List.mem_singleton.1 hr]
        exact fun hb => h ((isBest_iff t b a).2 hb)
  by_cases h : isBest c m t = true
  · have hb := (isBest_iff t c m).1 h
    have : m' = c := if_pos h
    rw [this]
    refine ⟨by simp, fun r hr => ?_⟩
    have hr' : r ∈ [a, b] ∨ r = c := by
      simp only [List.mem_cons, List.not_mem_nil, or_false] at hr ⊢
      tauto
    rcases hr' with hr' | rfl
    · exact fun hrc => better_asymm hrc (better_cotrans hb (hm.2 r hr'))
    · exact better_irrefl r
  · have : m' = m := if_neg h
    rw [this]
    refine ⟨?_, fun r hr => ?_⟩
    · have := hm.1
      simp only [List.mem_cons, List.not_mem_nil, or_false] at this ⊢
      tauto
    · have hr' : r ∈ [a, b] ∨ r = c := by
        simp only [List.mem_cons, List.not_mem_nil, or_false] at hr ⊢
        tauto
      rcases hr' with hr' | rfl
      · exact hm.2 r hr'
      · exact fun hb => h ((isBest_iff t r m).2 hb)

open Bx.Spec.Branch in
/-- C49: a turn splits the first job, which no other job precedes, on one variable; it calls the
inner optimizer once with the variable at 1 and once at 0; the job is replaced by these two, the
others stay, the queue stays in order; and the best result is one of the old best and of the two
results, none of which is better. -/
theorem C49_turn_explores_both_values (inner : Nat → Problem → Outcome Inner) (t : ObjType)
    (v calls : Nat) (it : Node) (rest jobs' : List Node) (best best' : Inner)
    (hq : Queue t (it :: rest))
    (h : body inner v calls (it :: rest) best = .ok (jobs', best')) :
    ∃ one zero r1 r0, affect it.problem v true = .ok one ∧ affect it.problem v false = .ok zero ∧
      inner calls one = .ok r1 ∧ inner (calls + 1) zero = .ok r0 ∧
      jobs'.Perm (⟨one, if r1.success then r1.last else 0, r1.remaining, r1.annoying⟩ ::
        ⟨zero, if r0.success then r0.last else 0, r0.remaining, r0.annoying⟩ :: rest) ∧
      Queue t jobs' ∧
      best' ∈ [best, r1, r0] ∧ ∀ r ∈ [best, r1, r0], ¬ Better t r best' := by
  unfold body at h
  simp only at h
  split at h
  · cases h
  · obtain ⟨⟨one, zero⟩, h1, h⟩ := bind_eq_ok.1 h
    obtain ⟨ret0, h2, h⟩ := bind_eq_ok.1 h
    obtain ⟨ret1, h3, h⟩ := bind_eq_ok.1 h
    obtain ⟨e, eb⟩ := Prod.mk.inj (Except.ok.inj h)
    unfold Preprocess.split at h1
    obtain ⟨a, a1, h1⟩ := bind_eq_ok.1 h1
    obtain ⟨b, b1, h1⟩ := bind_eq_ok.1 h1
    obtain ⟨rfl, rfl⟩ := Prod.mk.inj (Except.ok.inj h1)
    have ht : it.problem.type = t := hq.1 it (by simp)
    have ta : (node a ret0).problem.type = t := (affect_type a1).trans ht
    have tb : (node b ret1).problem.type = t := (affect_type b1).trans ht
    have q1 := emplace_queue ta hq 0
    have q2 := emplace_queue tb q1 (emplace (node a ret0) (it :: rest) 0).2
    have p1 : (emplace (node a ret0) (it :: rest) 0).1.Perm (node a ret0 :: it :: rest) :=
      emplace_perm ..
    have p2 : (emplace (node b ret1) (emplace (node a ret0) (it :: rest) 0).1
        (emplace (node a ret0) (it :: rest) 0).2).1.Perm
        (node b ret1 :: node a ret0 :: it :: rest) := (emplace_perm ..).trans (p1.cons _)
    have g2 := emplace_get (node b ret1) it _ _ (emplace_get (node a ret0) it (it :: rest) 0 rfl)
    obtain ⟨hlt, hget⟩ := List.getElem?_eq_some_iff.1 g2
    have p3 := (List.getElem_cons_eraseIdx_perm hlt).trans p2
    rw [hget, e] at p3
    have p4 : (it :: jobs').Perm (it :: node a ret0 :: node b ret1 :: rest) := by
      refine p3.trans ?_
      refine (List.Perm.swap ..).trans ?_
      refine ((List.Perm.swap it (node b ret1) rest).cons (node a ret0)).trans ?_
      exact List.Perm.swap ..
    refine ⟨a, b, ret0, ret1, a1, b1, h2, h3, p4.cons_inv, ⟨fun n hn => ?_, ?_⟩, ?_⟩
    · rcases List.mem_cons.1 (p4.cons_inv.mem_iff.1 hn) with rfl | hn
      · exact ta
      · rcases List.mem_cons.1 hn with rfl | hn
        · exact tb
        · exact hq.1 n (List.mem_cons_of_mem _ hn)
    · rw [← e]
      exact q2.2.sublist (List.eraseIdx_sublist ..)
    · rw [← eb, ht]
      exact best_of_three best ret0 ret1

open Bx.Spec.Branch in
/-- The first turn of the example: its queue of one job is in order and the turn succeeds. -/
example : Queue exRed.type [node exRed ⟨true, 0, 0, 0, 0, 0⟩] ∧
    ((body exInner 0 1 [node exRed ⟨true, 0, 0, 0, 0, 0⟩] ⟨true, 0, 0, 0, 0, 0⟩).map
      fun r => r.1.length) = .ok 2 :=
  ⟨⟨by simp [node], by simp⟩, by decide +kernel⟩

end Bx.Branch
