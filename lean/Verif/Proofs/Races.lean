import Verif.Spec.Races

/-!
# Lemmas on the traces of `Model/Races.lean`
-/

namespace Bx.Races
open Spec.Races Ev Loc

/-! ## Projections -/

theorem proj_append (w : Who) (a b : Trace) : proj w (a ++ b) = proj w a ++ proj w b := by
  simp [proj]

theorem proj_split {tr : Trace} {k : Nat} {w : Who} {e : Ev} (h : tr[k]? = some (w, e)) :
    proj w tr = proj w (tr.take k) ++ e :: proj w (tr.drop (k + 1)) := by
  obtain ⟨hk, he⟩ := List.getElem?_eq_some_iff.mp h
  have : tr = tr.take k ++ (w, e) :: tr.drop (k + 1) := by
    rw [← he, List.getElem_cons_drop, List.take_append_drop]
  have hp := congrArg (proj w) this
  rw [hp, proj_append]
  simp [proj]

theorem proj_take_succ {tr : Trace} {k : Nat} {w : Who} {e : Ev} (h : tr[k]? = some (w, e)) :
    proj w (tr.take (k + 1)) = proj w (tr.take k) ++ [e] := by
  rw [List.take_add_one, h, proj_append]
  simp [proj]

theorem proj_take_other {tr : Trace} {k : Nat} {w v : Who} {e : Ev} (h : tr[k]? = some (v, e)) (hv : v ≠ w) :
    proj w (tr.take (k + 1)) = proj w (tr.take k) := by
  rw [List.take_add_one, h, proj_append]
  simp [proj, hv]

theorem proj_take_prefix (w : Who) (tr : Trace) {i j : Nat} (h : i ≤ j) :
    proj w (tr.take i) <+: proj w (tr.take j) := by
  have : tr.take i <+: tr.take j := by
    rw [show tr.take i = (tr.take j).take i by rw [List.take_take, Nat.min_eq_left h]]
    exact List.take_prefix _ _
  obtain ⟨r, hr⟩ := this
  exact ⟨proj w r, by rw [← hr, proj_append]⟩

/-- An event of the projection is an event of the trace. -/
theorem proj_find {w : Who} {a b : List Ev} {e : Ev} :
    ∀ {tr : Trace}, proj w tr = a ++ e :: b → ∃ k : Nat, tr[k]? = some (w, e) ∧ proj w (tr.take k) = a := by
  intro tr
  induction tr generalizing a with
  | nil => intro h; simp [proj] at h
  | cons p tr ih =>
    intro h
    by_cases hp : p.1 = w
    · have hc : proj w (p :: tr) = p.2 :: proj w tr := by simp [proj, hp]
      rw [hc] at h
      cases a with
      | nil =>
        simp only [List.nil_append, List.cons.injEq] at h
        refine ⟨0, ?_, by simp [proj]⟩
        simp [← hp, ← h.1]
      | cons x a =>
        simp only [List.cons_append, List.cons.injEq] at h
        obtain ⟨k, hk, ha⟩ := ih h.2
        refine ⟨k + 1, by simpa using hk, ?_⟩
        rw [List.take_succ_cons, show proj w (p :: tr.take k) = p.2 :: proj w (tr.take k) by simp [proj, hp],
          ha, h.1]
    · have hc : proj w (p :: tr) = proj w tr := by simp [proj, hp]
      rw [hc] at h
      obtain ⟨k, hk, ha⟩ := ih h
      refine ⟨k + 1, by simpa using hk, ?_⟩
      rw [List.take_succ_cons, show proj w (p :: tr.take k) = proj w (tr.take k) by simp [proj, hp], ha]

/-- The order of the events of a thread is the order of its function. -/
theorem lt_of_length {w : Who} {tr : Trace} {i j : Nat}
    (h : (proj w (tr.take i)).length < (proj w (tr.take j)).length) : i < j := by
  refine Decidable.byContradiction fun hij => ?_
  have := (proj_take_prefix w tr (Nat.le_of_not_lt hij)).length_le
  omega

/-! ## The mutex -/

theorem held_succ_other {tr : Trace} {k : Nat} {w v : Who} {e : Ev} (h : tr[k]? = some (v, e)) (hv : v ≠ w) :
    held tr (k + 1) w = held tr k w := by
  rw [held, proj_take_other h hv, held]

theorem held_succ {tr : Trace} {k : Nat} {w : Who} {e : Ev} (h : tr[k]? = some (w, e)) :
    held tr (k + 1) w = (held tr k w).after e := by
  rw [held, proj_take_succ h, holdAfter, List.foldl_append]
  rfl

theorem held_succ_none {tr : Trace} {k : Nat} {w : Who} (h : tr[k]? = none) : held tr (k + 1) w = held tr k w := by
  rw [held, held, List.take_add_one, h]
  simp

/-- When a thread does not hold the mutex as before, one of its events changed that. -/
theorem held_change {tr : Trace} {w : Who} {h : Hold} {i j : Nat} (hij : i ≤ j) (hi : held tr i w = h)
    (hj : held tr j w ≠ h) :
    ∃ m e, i ≤ m ∧ m < j ∧ tr[m]? = some (w, e) ∧ held tr m w = h ∧ h.after e ≠ h := by
  induction hij with
  | refl => exact absurd hi hj
  | @step j hij ih =>
    by_cases hm : held tr j w = h
    · rcases hs : tr[j]? with _ | ⟨v, e⟩
      · rw [held_succ_none hs] at hj; exact absurd hm hj
      · by_cases hv : v = w
        · subst hv
          rw [held_succ hs, hm] at hj
          exact ⟨j, e, hij, Nat.lt_succ_self j, hs, hm, hj⟩
        · rw [held_succ_other hs hv] at hj; exact absurd hm hj
    · obtain ⟨m, e, h1, h2, h3⟩ := ih hm
      exact ⟨m, e, h1, Nat.lt_succ_of_lt h2, h3⟩

/-- When a thread holds the mutex in a new way, one of its events did that. -/
theorem held_reach {tr : Trace} {w : Who} {h : Hold} {i j : Nat} (hij : i ≤ j) (hi : held tr i w ≠ h)
    (hj : held tr j w = h) :
    ∃ m e, i ≤ m ∧ m < j ∧ tr[m]? = some (w, e) ∧ held tr m w ≠ h ∧ (held tr m w).after e = h := by
  induction hij with
  | refl => exact absurd hj hi
  | @step j hij ih =>
    by_cases hm : held tr j w = h
    · obtain ⟨m, e, h1, h2, h3⟩ := ih hm
      exact ⟨m, e, h1, Nat.lt_succ_of_lt h2, h3⟩
    · rcases hs : tr[j]? with _ | ⟨v, e⟩
      · rw [held_succ_none hs] at hj; exact absurd hj hm
      · by_cases hv : v = w
        · subst hv
          rw [held_succ hs] at hj
          exact ⟨j, e, hij, Nat.lt_succ_self j, hs, hm, hj⟩
        · rw [held_succ_other hs hv] at hj; exact absurd hj hm

theorem after_eq_exclusive {h : Hold} {e : Ev} (hh : h ≠ .exclusive) (ha : h.after e = .exclusive) : e = lock := by
  cases e <;> cases h <;> simp [Hold.after] at ha hh ⊢

theorem edge_program {tr : Trace} {i j : Nat} {w : Who} {e f : Ev} (hij : i < j) (hi : tr[i]? = some (w, e))
    (hj : tr[j]? = some (w, f)) : Edge tr i j := ⟨hij, _, _, hi, hj, Or.inl rfl⟩

/-- Program order, also when the two events are the same. -/
theorem program_or_eq {tr : Trace} {i j k : Nat} {w : Who} {e f : Ev} (hij : i ≤ j) (hi : tr[i]? = some (w, e))
    (hj : tr[j]? = some (w, f)) (h : HappensBefore tr j k) : HappensBefore tr i k := by
  rcases Nat.eq_or_lt_of_le hij with rfl | hlt
  · exact h
  · exact Relation.TransGen.head (edge_program hlt hi hj) h

/-- Neither two threads hold the mutex when one of them holds it as a writer: what the mutex guarantees, in
every trace where it works. -/
theorem exclusive_alone {tr : Trace} (hm : MutexWorks tr) : ∀ (i : Nat) {w v : Who}, w ≠ v →
    held tr i w = .exclusive → held tr i v = .free := by
  intro i
  induction i with
  | zero => intro w v _ h; simp [held, proj, holdAfter] at h
  | succ i ih =>
    intro w v hwv h
    rcases hs : tr[i]? with _ | ⟨u, e⟩
    · rw [held_succ_none hs] at h ⊢; exact ih hwv h
    · by_cases hw : u = w
      · subst hw
        rw [held_succ hs] at h
        rw [held_succ_other hs hwv]
        by_cases hx : held tr i u = .exclusive
        · exact ih hwv hx
        · have he : e = lock := by
            cases e <;> simp [Hold.after, hx] at h ⊢
            split at h <;> simp_all
          subst he
          exact (hm i u).1 hs v
      · rw [held_succ_other hs hw] at h
        by_cases hv : u = v
        · subst hv
          rw [held_succ hs]
          have hf := ih hwv h
          cases e with
          | lock => have := (hm i u).1 hs w; rw [h] at this; cases this
          | lockShared => exact absurd h (((hm i u).2 hs).2 w)
          | _ => simp [Hold.after, hf]
        · rw [held_succ_other hs hv]; exact ih hwv h

/-- Two accesses under the mutex, one of them by a writer, are ordered. -/
theorem ordered_by_mutex {tr : Trace} (hm : MutexWorks tr) {i j : Nat} {w v : Who} {e f : Ev} (hij : i < j)
    (hi : tr[i]? = some (w, e)) (hj : tr[j]? = some (v, f)) (hwv : w ≠ v)
    (hhi : held tr i w ≠ .free) (hhj : held tr j v ≠ .free)
    (hx : held tr i w = .exclusive ∨ held tr j v = .exclusive) : HappensBefore tr i j := by
  rcases hx with hx | hx
  · -- the first one is a writer: the second one locked after it unlocked
    have hv : held tr i v = .free := exclusive_alone hm i hwv hx
    obtain ⟨k, g, hik, hkj, hk, hkf, hg⟩ := held_change (Nat.le_of_lt hij) hv hhj
    have hlock : g = lock ∨ g = lockShared := by
      cases g <;> simp [Hold.after] at hg ⊢
    have hwk : held tr k w ≠ .exclusive := by
      rcases hlock with rfl | rfl
      · rw [(hm k v).1 hk w]; simp
      · exact ((hm k v).2 hk).2 w
    obtain ⟨m, u, him, hmk, hms, hmx, hu⟩ := held_change hik hx hwk
    have huu : u = unlock := by
      cases u with
      | lockShared => have := ((hm m w).2 hms).1; rw [hmx] at this; cases this
      | unlock => rfl
      | _ => simp [Hold.after] at hu
    subst huu
    refine program_or_eq him hi hms (Relation.TransGen.head ⟨hmk, _, _, hms, hk, Or.inr (Or.inl ⟨rfl, hlock⟩)⟩ ?_)
    exact Relation.TransGen.single (edge_program hkj hk hj)
  · -- the second one is a writer: it locked after the first one unlocked
    have hv : held tr i v ≠ .exclusive := fun h => hhi (exclusive_alone hm i (Ne.symm hwv) h)
    obtain ⟨k, g, hik, hkj, hk, hkf, hg⟩ := held_reach (Nat.le_of_lt hij) hv hx
    obtain rfl := after_eq_exclusive hkf hg
    have hwk : held tr k w = .free := (hm k v).1 hk w
    obtain ⟨m, u, him, hmk, hms, hmx, hu⟩ := held_change hik (rfl : held tr i w = held tr i w)
      (fun h => hhi (h ▸ hwk))
    have huu : u = unlockShared ∨ u = unlock := by
      cases u with
      | lockShared => exact absurd (hmx ▸ ((hm m w).2 hms).1) hhi
      | lock => exact absurd (hmx ▸ (hm m w).1 hms w) hhi
      | unlock => exact Or.inr rfl
      | unlockShared => exact Or.inl rfl
      | _ => simp [Hold.after] at hu
    refine program_or_eq him hi hms (Relation.TransGen.head (b := k) ⟨hmk, _, _, hms, hk, ?_⟩ ?_)
    · rcases huu with rfl | rfl
      · exact Or.inr (Or.inr (Or.inl ⟨rfl, rfl⟩))
      · exact Or.inr (Or.inl ⟨rfl, Or.inl rfl⟩)
    · exact Relation.TransGen.single (edge_program hkj hk hj)


/-! ## The discipline of the workers -/

/-- What worker `t` may do when it holds the mutex as `h`. -/
def Good (t : Nat) (h : Hold) : Ev → Prop
  | .read (vector _) => h ≠ .free
  | .write (vector _) => h ≠ .free
  | .read (field _ _) => h ≠ .free
  | .write (field _ _) => h ≠ .free
  | .read random => h ≠ .free
  | .write random => h ≠ .free
  | .write indices => h = .exclusive
  | .read (kappa s) => s = t
  | .write (kappa s) => s = t
  | .read (calls s) => s = t
  | .write (calls s) => s = t
  | .read (own s) => s = t
  | .write (own s) => s = t
  | .write bastert => False
  | .write input => False
  | _ => True

/-- All the events of a list are good, from the hold `h` on. -/
def AllGood (G : Hold → Ev → Prop) : Hold → List Ev → Prop
  | _, [] => True
  | h, e :: es => G h e ∧ AllGood G (h.after e) es

theorem allGood_append {G : Hold → Ev → Prop} (a b : List Ev) : ∀ {h : Hold},
    AllGood G h (a ++ b) ↔ AllGood G h a ∧ AllGood G (a.foldl Hold.after h) b := by
  induction a with
  | nil => intro h; simp [AllGood]
  | cons e a ih => intro h; simp [AllGood, ih, and_assoc]

theorem allGood_at {G : Hold → Ev → Prop} {a b : List Ev} {e : Ev} (h : AllGood G .free (a ++ e :: b)) :
    G (holdAfter a) e := ((allGood_append a (e :: b)).mp h).2.1

/-- A block of events which leaves the hold as it was. -/
def Block (G : Hold → Ev → Prop) (h : Hold) (es : List Ev) : Prop := AllGood G h es ∧ es.foldl Hold.after h = h

theorem Block.append {G : Hold → Ev → Prop} {h : Hold} {a b : List Ev} (ha : Block G h a) (hb : Block G h b) :
    Block G h (a ++ b) := by
  refine ⟨(allGood_append a b).mpr ⟨ha.1, ?_⟩, ?_⟩
  · rw [ha.2]; exact hb.1
  · rw [List.foldl_append, ha.2, hb.2]

theorem Block.nil {G : Hold → Ev → Prop} {h : Hold} : Block G h [] := ⟨trivial, rfl⟩

theorem Block.flatMap {α : Type} {G : Hold → Ev → Prop} {h : Hold} {f : α → List Ev} (l : List α)
    (hf : ∀ x ∈ l, Block G h (f x)) : Block G h (l.flatMap f) := by
  induction l with
  | nil => exact Block.nil
  | cons x l ih =>
    rw [List.flatMap_cons]
    exact (hf x (List.mem_cons_self)).append (ih fun y hy => hf y (List.mem_cons_of_mem _ hy))

/-- The body of a lock is a block of its own. -/
theorem Block.locked {G : Hold → Ev → Prop} {es : List Ev} (h : Block G .exclusive es)
    (h1 : G .free lock) (h2 : G .exclusive unlock) :
    Block G .free (lock :: (es ++ [unlock])) := by
  refine ⟨⟨h1, (allGood_append _ _).mpr ⟨h.1, by rw [show Hold.after .free lock = .exclusive from rfl, h.2]; exact h2, trivial⟩⟩, ?_⟩
  simp only [List.foldl_cons, List.foldl_append]
  rw [show Hold.after .free lock = .exclusive from rfl, h.2]
  rfl

theorem Block.lockedShared {G : Hold → Ev → Prop} {es : List Ev} (h : Block G .shared es)
    (h1 : G .free lockShared) (h2 : G .shared unlockShared) :
    Block G .free (lockShared :: (es ++ [unlockShared])) := by
  refine ⟨⟨h1, (allGood_append _ _).mpr ⟨h.1, by rw [show Hold.after .free lockShared = .shared from rfl, h.2]; exact h2, trivial⟩⟩, ?_⟩
  simp only [List.foldl_cons, List.foldl_append]
  rw [show Hold.after .free lockShared = .shared from rfl, h.2]
  rfl

theorem block_sort (t : Nat) (steps : List SortStep) : Block (Good t) .free (sortEvents steps) := by
  refine Block.locked (Block.flatMap _ fun s _ => ?_) trivial trivial
  cases s <;> simp [Block, SortStep.events, AllGood, Good, Hold.after]

theorem block_replace (t id : Nat) : Block (Good t) .free (replaceEvents id) := by
  simp [Block, replaceEvents, AllGood, Good, Hold.after]

theorem block_canBeInserted (t : Nat) (byValue : Bool) (seen : Nat) :
    Block (Good t) .free (canBeInsertedEvents byValue seen) := by
  refine Block.lockedShared (Block.flatMap _ fun i _ => ?_) trivial trivial
  cases byValue <;> simp [Block, lookEvents, AllGood, Good, Hold.after]

theorem block_submit (size t : Nat) (s : Submit) : Block (Good t) .free (s.events size) := by
  cases s with
  | refused byValue seen => exact block_canBeInserted t byValue seen
  | accepted byValue id steps =>
    refine (block_canBeInserted t byValue size).append ((Block.append ?_ (block_replace t id)).append
      (block_sort t steps))
    simp [Block, AllGood, Good, Hold.after]

theorem block_cross (t : Nat) (c : Cross) : Block (Good t) .free (c.events t) := by
  cases c with
  | pair first second again =>
    have hr : Block (Good t) .shared (List.replicate again (read indices)) := by
      induction again with
      | zero => exact Block.nil
      | succ n ih =>
        refine ⟨⟨trivial, ?_⟩, ?_⟩
        · exact ih.1
        · exact ih.2
    have h1 : Block (Good t) .shared ([write (own t), read indices, read indices] ++
        List.replicate again (read indices) ++ [read (vector first), read (vector second), write (own t)]) := by
      refine (Block.append ?_ hr).append ?_ <;> simp [Block, AllGood, Good, Hold.after]
    have := h1.lockedShared trivial trivial
    simpa [Cross.events] using this
  | _ => simp [Block, Cross.events, AllGood, Good, Hold.after]

theorem block_turn (size t : Nat) (turn : Turn) : Block (Good t) .free (turn.events size t) := by
  refine (Block.append ?_ ?_).append (Block.flatMap _ fun a _ => ?_)
  · simp [Block, AllGood, Good, Hold.after]
  · cases turn.cross with
    | none => simp [Block, reinitEvents, AllGood, Good, Hold.after]
    | some c =>
      refine (Block.append ?_ (block_cross t c)).append ?_ <;> simp [Block, AllGood, Good, Hold.after]
  · cases a with
    | submit s =>
      refine Block.append ?_ (block_submit size t s)
      simp [Block, AllGood, Good, Hold.after]
    | _ => simp [Block, Act.events, AllGood, Good, Hold.after]

theorem block_worker (size t : Nat) (turns : List Turn) : Block (Good t) .free (workerEvents size t turns) := by
  refine (Block.append ?_ (Block.flatMap _ fun x _ => block_turn size t x)).append ?_ <;>
    simp [Block, AllGood, Good, Hold.after]

/-- Every event of a worker in a run is good. -/
theorem worker_good {size n : Nat} {update : Bool} {tr : Trace} (hr : Run size n update tr) {i t : Nat} {e : Ev}
    (hi : tr[i]? = some (.worker t, e)) : t < n ∧ Good t (held tr i (.worker t)) e := by
  have ht : t < n := by
    refine Decidable.byContradiction fun h => ?_
    have := hr.nobody t (Nat.le_of_not_lt h)
    rw [proj_split hi] at this
    simp at this
  obtain ⟨turns, r, hp⟩ := hr.workers t ht
  rw [proj_split hi, List.append_assoc] at hp
  refine ⟨ht, allGood_at (b := proj (.worker t) (tr.drop (i + 1)) ++ r) ?_⟩
  rw [← List.cons_append, hp]
  exact (block_worker size t turns).1

/-! ## The main thread -/

/-- What the main thread does in its loop. -/
def TickGood (update : Bool) (h : Hold) : Ev → Prop
  | .read (calls _) => update = true
  | .read indices => update = true ∧ h ≠ .free
  | .read (field _ _) => update = true ∧ h ≠ .free
  | .read _ => False
  | .write _ => False
  | _ => True

theorem split_append {α : Type} {a b c d : List α} {e : α} (h : a ++ e :: b = c ++ d) :
    (∃ r, c = a ++ e :: r ∧ b = r ++ d) ∨ ∃ r, a = c ++ r ∧ d = r ++ e :: b := by
  rcases List.append_eq_append_iff.mp h with ⟨r, hc, hd⟩ | ⟨r, ha, hd⟩
  · cases r with
    | nil => exact Or.inr ⟨[], by simpa using hc.symm, by simpa using hd.symm⟩
    | cons x r =>
      simp only [List.cons_append, List.cons.injEq] at hd
      obtain ⟨rfl, rfl⟩ := hd
      exact Or.inl ⟨r, hc, rfl⟩
  · exact Or.inr ⟨r, ha, hd⟩


theorem block_setup (size n : Nat) (steps : List SortStep) :
    Block (fun _ _ => True) .free (setupEvents size n steps) := by
  refine ((((Block.append ?_ (Block.flatMap _ fun i _ => ?_)).append ?_).append
    (Block.locked (Block.flatMap _ fun s _ => ?_) trivial trivial)).append ?_).append (Block.flatMap _ fun t _ => ?_)
  · simp [Block, AllGood, Hold.after]
  · simp [Block, entryEvents, AllGood, Hold.after]
  · simp [Block, AllGood, Hold.after]
  · cases s <;> simp [Block, SortStep.events, AllGood, Hold.after]
  · simp [Block, AllGood, Hold.after]
  · simp [Block, AllGood, Hold.after]

theorem block_starts {G : Hold → Ev → Prop} (l : List Nat) (hG : ∀ t, G .free (start t)) :
    Block G .free (l.map start) := by
  rw [List.map_eq_flatMap]
  exact Block.flatMap _ fun t _ => ⟨⟨hG t, trivial⟩, rfl⟩

theorem block_tick (n : Nat) (update : Bool) (id : Nat) : Block (TickGood update) .free (tickEvents n update id) := by
  cases update with
  | false => exact Block.nil
  | true =>
    refine Block.append ?_ ?_
    · rw [List.map_eq_flatMap]
      exact Block.flatMap _ fun t _ => ⟨⟨rfl, trivial⟩, rfl⟩
    · simp [Block, getBestEvents, AllGood, TickGood, Hold.after]

theorem start_not_setup (size n : Nat) (steps : List SortStep) (t : Nat) :
    start t ∉ setupEvents size n steps := by
  simp only [setupEvents, sortEvents, entryEvents, List.mem_append, List.mem_flatMap, List.mem_cons, not_or]
  refine ⟨⟨⟨⟨⟨?_, ?_⟩, ?_⟩, ?_⟩, ?_⟩, ?_⟩ <;> try simp
  intro s _
  cases s <;> simp [SortStep.events]

/-- An access of the main thread belongs to the construction, to the loop or to the reads of the end. -/
theorem main_cases {size n : Nat} {update : Bool} {steps : List SortStep} {ticks : List Nat} {last : List Loc}
    {a b : List Ev} {e : Ev} {l : Loc} (h : a ++ e :: b = mainEvents size n update steps ticks last)
    (hl : Accesses e l) :
    (∃ r, setupEvents size n steps = a ++ e :: r) ∨ TickGood update (holdAfter a) e ∨
      (∃ r, a = setupEvents size n steps ++ ((List.range n).map start ++ (ticks.flatMap (tickEvents n update) ++
        ([store] ++ ((List.range n).map join ++ r))))) := by
  have hset := (block_setup size n steps).2
  rcases split_append h with ⟨r, h1, _⟩ | ⟨r1, ha, h⟩
  · exact Or.inl ⟨r, h1⟩
  rcases split_append h.symm with ⟨r, h1, _⟩ | ⟨r2, hb, h⟩
  · have : e ∈ (List.range n).map start := by rw [h1]; simp
    obtain ⟨t, _, rfl⟩ := List.mem_map.mp this
    rcases hl with hl | hl <;> cases hl
  rcases split_append h.symm with ⟨r, h1, _⟩ | ⟨r3, hc, h⟩
  · refine Or.inr (Or.inl ?_)
    have hg := (Block.flatMap (G := TickGood update) ticks fun id _ => block_tick n update id).1
    rw [h1] at hg
    have := ((allGood_append _ _).mp hg).2.1
    have hh : holdAfter a = r2.foldl Hold.after .free := by
      rw [ha, hb, holdAfter, List.foldl_append, hset, List.foldl_append,
        (block_starts (G := fun _ _ => True) (List.range n) fun _ => trivial).2]
    rw [hh]
    exact this
  rcases split_append h.symm with ⟨r, h1, _⟩ | ⟨r4, hd, h⟩
  · have : e ∈ [store] := by rw [h1]; simp
    obtain rfl := List.mem_singleton.mp this
    rcases hl with hl | hl <;> cases hl
  rcases split_append h.symm with ⟨r, h1, _⟩ | ⟨r5, he, h⟩
  · have : e ∈ (List.range n).map join := by rw [h1]; simp
    obtain ⟨t, _, rfl⟩ := List.mem_map.mp this
    rcases hl with hl | hl <;> cases hl
  · exact Or.inr (Or.inr ⟨r5, by rw [ha, hb, hc, hd, he]⟩)

/-- An access of the main thread outside its loop is ordered with every event of the workers. -/
theorem main_ordered {size n : Nat} {update : Bool} {tr : Trace} (hr : Run size n update tr) {i j t : Nat}
    {e f : Ev} {l : Loc} (hi : tr[i]? = some (.main, e)) (hj : tr[j]? = some (.worker t, f))
    (hl : Accesses e l) (hn : ¬ TickGood update (held tr i .main) e) :
    (i < j ∧ HappensBefore tr i j) ∨ (j < i ∧ HappensBefore tr j i) := by
  obtain ⟨steps, ticks, last, rest, hp⟩ := hr.main
  have ht := (worker_good hr hj).1
  have hs := proj_split hi
  rw [hs, List.append_assoc, List.cons_append] at hp
  rcases main_cases hp hl with ⟨r, h⟩ | h | ⟨r, h⟩
  · left
    obtain ⟨k, hkj, hk⟩ := hr.started j t f hj
    have hik : i < k := by
      refine lt_of_length (w := .main) (tr := tr) (Decidable.byContradiction fun hlen => ?_)
      have hks := proj_split hk
      have hmem : start t ∈ setupEvents size n steps := by
        have h1 : (proj .main (tr.take k)).length < (setupEvents size n steps).length := by
          rw [h]; simp; omega
        have h2 : (proj .main tr)[(proj .main (tr.take k)).length]? = some (start t) := by
          rw [hks]; simp
        have h3 : (mainEvents size n update steps ticks last)[(proj .main (tr.take k)).length]? = some (start t) := by
          rw [← hp, ← List.cons_append, ← List.append_assoc, ← hs, List.getElem?_append_left, h2]
          rw [hks]; simp
        rw [mainEvents, List.getElem?_append_left h1] at h3
        exact List.mem_of_getElem? h3
      exact start_not_setup _ _ _ _ hmem
    refine ⟨Nat.lt_trans hik hkj, Relation.TransGen.head (edge_program hik hi hk) (Relation.TransGen.single ?_)⟩
    exact ⟨hkj, _, _, hk, hj, Or.inr (Or.inr (Or.inr (Or.inl ⟨t, rfl, rfl⟩)))⟩
  · exact absurd h hn
  · right
    obtain ⟨p, q, hpq⟩ := List.append_of_mem (List.mem_map.mpr ⟨t, List.mem_range.mpr ht, rfl⟩ :
      join t ∈ (List.range n).map join)
    rw [hpq] at h
    have hsp : proj .main tr = (setupEvents size n steps ++ ((List.range n).map start ++
        (ticks.flatMap (tickEvents n update) ++ ([store] ++ p)))) ++ join t ::
        (q ++ r ++ e :: proj .main (tr.drop (i + 1))) := by
      rw [hs, h]; simp
    obtain ⟨k, hk, hka⟩ := proj_find hsp
    have hki : k < i := by
      refine lt_of_length (w := .main) (tr := tr) ?_
      rw [hka, h]; simp
    have hjk := hr.joined j k t f hk hj
    refine ⟨Nat.lt_trans hjk hki, Relation.TransGen.head ?_ (Relation.TransGen.single (edge_program hki hk hi))⟩
    exact ⟨hjk, _, _, hj, hk, Or.inr (Or.inr (Or.inr (Or.inr (Or.inl ⟨t, rfl, rfl⟩))))⟩


/-! ## The races -/

theorem happensBefore_lt {tr : Trace} {i j : Nat} (h : HappensBefore tr i j) : i < j := by
  induction h with
  | single h => exact h.1
  | tail _ h ih => exact Nat.lt_trans ih h.1

/-- Two accesses of different threads, not ordered, the first one a write. -/
theorem unordered_write {size n : Nat} {update : Bool} {tr : Trace} (hr : Run size n update tr) {i j : Nat}
    {w v : Who} {l : Loc} {f : Ev} (hi : tr[i]? = some (w, .write l)) (hj : tr[j]? = some (v, f)) (hwv : w ≠ v)
    (hl : Accesses f l) (hij : ¬ HappensBefore tr i j) (hji : ¬ HappensBefore tr j i) :
    (((∃ id, l = vector id) ∨ (∃ id g, l = field id g) ∨ l = random) ∧
        held tr i w = .shared ∧ held tr j v = .shared) ∨
      (l = indices ∧ f = .read indices ∧ held tr j v = .free) ∨
      (∃ t, l = calls t ∧ update = true ∧ v = .main ∧ f = .read (calls t)) := by
  have hmain : ∀ {a b t : Nat} {e g : Ev} {k : Loc}, tr[a]? = some (.main, e) → tr[b]? = some (.worker t, g) →
      Accesses e k → ¬ HappensBefore tr a b → ¬ HappensBefore tr b a → TickGood update (held tr a .main) e := by
    intro a b t e g k ha hb hk h1 h2
    refine Classical.byContradiction fun hn => ?_
    rcases main_ordered hr ha hb hk hn with h | h
    · exact h1 h.2
    · exact h2 h.2
  have hmutex : held tr i w ≠ .free → held tr j v ≠ .free →
      held tr i w = .shared ∧ held tr j v = .shared := by
    intro h1 h2
    refine Classical.byContradiction fun hn => ?_
    have hx : held tr i w = .exclusive ∨ held tr j v = .exclusive := by
      rcases hw : held tr i w <;> rcases hv : held tr j v <;> simp_all
    rcases Nat.lt_trichotomy i j with h | h | h
    · exact hij (ordered_by_mutex hr.mutex h hi hj hwv h1 h2 hx)
    · subst h; rw [hi] at hj; cases hj; exact hwv rfl
    · exact hji (ordered_by_mutex hr.mutex h hj hi (Ne.symm hwv) h2 h1 hx.symm)
  cases w with
  | main =>
    cases v with
    | main => exact absurd rfl hwv
    | worker s => exact (hmain hi hj (Or.inr rfl) hij hji).elim
  | worker t =>
    have hg := (worker_good hr hi).2
    have hf : (∃ s, v = .worker s ∧ Good s (held tr j v) f) ∨ (v = .main ∧ TickGood update (held tr j v) f) := by
      cases v with
      | main => exact Or.inr ⟨rfl, hmain hj hi hl hji hij⟩
      | worker s => exact Or.inl ⟨s, rfl, (worker_good hr hj).2⟩
    cases l with
    | bastert => exact hg.elim
    | input => exact hg.elim
    | indices =>
      right; left
      have hx : held tr i (.worker t) = .exclusive := hg
      have hfree : held tr j v = .free := by
        refine Classical.byContradiction fun hn => ?_
        have := (hmutex (by rw [hx]; simp) hn).1
        rw [hx] at this; cases this
      refine ⟨rfl, ?_, hfree⟩
      rcases hl with rfl | rfl
      · rfl
      · rcases hf with ⟨s, _, h⟩ | ⟨_, h⟩
        · exact absurd (hfree.symm.trans h) (by simp)
        · exact h.elim
    | vector id =>
      left
      refine ⟨Or.inl ⟨id, rfl⟩, hmutex hg ?_⟩
      rcases hf with ⟨s, _, h⟩ | ⟨_, h⟩ <;> rcases hl with rfl | rfl <;> first | exact h | exact h.2 | exact h.elim
    | field id g =>
      left
      refine ⟨Or.inr (Or.inl ⟨id, g, rfl⟩), hmutex hg ?_⟩
      rcases hf with ⟨s, _, h⟩ | ⟨_, h⟩ <;> rcases hl with rfl | rfl <;> first | exact h | exact h.2 | exact h.elim
    | random =>
      left
      refine ⟨Or.inr (Or.inr rfl), hmutex hg ?_⟩
      rcases hf with ⟨s, _, h⟩ | ⟨_, h⟩ <;> rcases hl with rfl | rfl <;> first | exact h | exact h.2 | exact h.elim
    | kappa s =>
      exfalso
      obtain rfl : s = t := hg
      rcases hf with ⟨s', rfl, h⟩ | ⟨_, h⟩ <;> rcases hl with rfl | rfl <;>
        first | exact h.elim | (obtain rfl : s = s' := h; exact hwv rfl)
    | own s =>
      exfalso
      obtain rfl : s = t := hg
      rcases hf with ⟨s', rfl, h⟩ | ⟨_, h⟩ <;> rcases hl with rfl | rfl <;>
        first | exact h.elim | (obtain rfl : s = s' := h; exact hwv rfl)
    | calls s =>
      right; right
      obtain rfl : s = t := hg
      rcases hf with ⟨s', rfl, h⟩ | ⟨rfl, h⟩ <;> rcases hl with rfl | rfl <;>
        first
        | exact ⟨s, rfl, h, rfl, rfl⟩
        | exact h.elim
        | (obtain rfl : s = s' := h; exact absurd rfl hwv)

/-- Without `update` every access of the main thread is ordered with the workers. -/
theorem main_quiet {size n : Nat} {tr : Trace} (hr : Run size n false tr) {i j t : Nat} {e f : Ev} {l : Loc}
    (hi : tr[i]? = some (.main, e)) (hj : tr[j]? = some (.worker t, f)) (hl : Accesses e l) :
    HappensBefore tr i j ∨ HappensBefore tr j i := by
  have hn : ¬ TickGood false (held tr i .main) e := by
    rcases hl with rfl | rfl
    · cases l <;> simp [TickGood]
    · simp [TickGood]
  rcases main_ordered hr hi hj hl hn with h | h
  · exact Or.inl h.2
  · exact Or.inr h.2

/-! ## Checks on concrete traces -/

instance (p q : Who × Ev) : Decidable (Orders p q) := by
  unfold Orders
  have h1 : Decidable (∃ t, p.2 = .start t ∧ q.1 = .worker t) :=
    match hp : p.2, hq : q.1 with
    | .start t, .worker s => decidable_of_iff (t = s) (by simp [eq_comm])
    | .start _, .main => isFalse (by simp)
    | .read _, _ | .write _, _ | .lockShared, _ | .unlockShared, _ | .lock, _ | .unlock, _ | .load, _ | .store, _
    | .join _, _ => isFalse (by simp)
  have h2 : Decidable (∃ t, p.1 = .worker t ∧ q.2 = .join t) :=
    match hp : p.1, hq : q.2 with
    | .worker t, .join s => decidable_of_iff (t = s) (by simp [eq_comm])
    | .main, _ => isFalse (by simp)
    | .worker _, .read _ | .worker _, .write _ | .worker _, .lockShared | .worker _, .unlockShared
    | .worker _, .lock | .worker _, .unlock | .worker _, .load | .worker _, .store | .worker _, .start _ =>
      isFalse (by simp)
  infer_instance

/-- A set of events closed under the relation is not left by it. -/
theorem not_happensBefore {tr : Trace} {i j : Nat} (S : List Nat)
    (hS : ∀ a ∈ S, ∀ b ∈ List.range tr.length, ∀ p ∈ tr[a]?, ∀ q ∈ tr[b]?, a < b → Orders p q → b ∈ S)
    (hi : i ∈ S) (hj : j ∉ S) : ¬ HappensBefore tr i j := by
  intro h
  have : ∀ {k : Nat}, HappensBefore tr i k → k ∈ S := by
    intro k hk
    have step : ∀ {a b : Nat}, a ∈ S → Edge tr a b → b ∈ S := by
      intro a b ha ⟨hab, p, q, hp, hq, ho⟩
      have hb : b < tr.length := (List.getElem?_eq_some_iff.mp hq).1
      exact hS a ha b (List.mem_range.mpr hb) p hp q hq hab ho
    induction hk with
    | single h => exact step hi h
    | tail _ h ih => exact step ih h
  exact hj (this h)


/-- The threads of a run with `n` workers. -/
def people (n : Nat) : List Who := .main :: (List.range n).map .worker

theorem mem_people {n : Nat} (w : Who) : w ∈ people n ↔ w = .main ∨ ∃ t, t < n ∧ w = .worker t := by
  simp [people, eq_comm]

theorem proj_nil {w : Who} {tr : Trace} (h : ∀ p ∈ tr, p.1 ≠ w) : proj w tr = [] := by
  rw [proj, List.filterMap_eq_nil_iff]
  intro p hp
  simp [h p hp]

/-- A check of a concrete trace. -/
theorem run_of_check {size n : Nat} {update : Bool} {tr : Trace} (steps : List SortStep) (ticks : List Nat)
    (last : List Loc) (turns : Nat → List Turn)
    (hm : proj .main tr <+: mainEvents size n update steps ticks last)
    (hw : ∀ t ∈ List.range n, proj (.worker t) tr <+: workerEvents size t (turns t))
    (hp : ∀ p ∈ tr, p.1 ∈ people n)
    (hl : ∀ i ∈ List.range tr.length, ∀ p ∈ tr[i]?, ∀ v ∈ people n,
      (p.2 = lock → held tr i v = .free) ∧
        (p.2 = lockShared → held tr i p.1 = .free ∧ held tr i v ≠ .exclusive))
    (hs : ∀ j ∈ List.range tr.length, ∀ t ∈ List.range n, ∀ p ∈ tr[j]?, p.1 = .worker t →
      (Who.main, start t) ∈ tr.take j)
    (hj : ∀ j ∈ List.range tr.length, ∀ t ∈ List.range n, tr[j]? = some (Who.main, join t) →
      ∀ p ∈ tr.drop j, p.1 ≠ .worker t) : Run size n update tr := by
  have hlt : ∀ {j : Nat} {p : Who × Ev}, tr[j]? = some p → j ∈ List.range tr.length := fun h =>
    List.mem_range.mpr (List.getElem?_eq_some_iff.mp h).1
  have hn : ∀ {t : Nat} {e : Ev} {j : Nat}, tr[j]? = some (.worker t, e) → t ∈ List.range n := by
    intro t e j h
    rcases (mem_people _).mp (hp _ (List.mem_of_getElem? h)) with h | ⟨s, hs, h⟩
    · cases h
    · cases h; exact List.mem_range.mpr hs
  have hout : ∀ {v : Who}, v ∉ people n → ∀ i, held tr i v = .free := by
    intro v hv i
    rw [held, proj_nil]
    · rfl
    · intro p hpt hpv
      exact hv (hpv ▸ hp p (List.mem_of_mem_take hpt))
  refine ⟨⟨steps, ticks, last, hm⟩, fun t ht => ⟨turns t, hw t (List.mem_range.mpr ht)⟩, ?_, ?_, ?_, ?_⟩
  · intro t ht
    refine proj_nil fun p hpt hpv => ?_
    rcases (mem_people _).mp (hp p hpt) with h | ⟨s, hs, h⟩
    · rw [h] at hpv; cases hpv
    · rw [h] at hpv; cases hpv; omega
  · intro i w
    refine ⟨fun h v => ?_, fun h => ?_⟩
    · by_cases hv : v ∈ people n
      · exact (hl i (hlt h) _ h v hv).1 rfl
      · exact hout hv i
    · refine ⟨((hl i (hlt h) _ h .main ((mem_people _).mpr (Or.inl rfl))).2 rfl).1, fun v => ?_⟩
      by_cases hv : v ∈ people n
      · exact ((hl i (hlt h) _ h v hv).2 rfl).2
      · rw [hout hv i]; simp
  · intro j t e h
    have := hs j (hlt h) t (hn h) _ h rfl
    obtain ⟨i, hi, he⟩ := List.mem_iff_getElem.mp this
    have hij : i < j := by simp at hi; omega
    refine ⟨i, hij, ?_⟩
    rw [← he, List.getElem_take, List.getElem?_eq_getElem]
  · intro i j t e h1 h2
    refine Decidable.byContradiction fun hij => ?_
    have hji : j ≤ i := by omega
    refine hj j (hlt h1) t (hn h2) h1 (.worker t, e) ?_ rfl
    refine List.mem_of_getElem? (i := i - j) ?_
    rw [List.getElem?_drop, Nat.add_sub_cancel' hji, h2]

end Bx.Races
