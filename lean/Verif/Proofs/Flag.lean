import Verif.Spec.Flag
import Verif.Props.Workers

/-!
# The steps of the workers with the flag
-/

namespace Bx.Optimizer

open Itm Merge SolverCtor Spec Spec.Optimizer

variable {ρ : Type} {g : Setting} {slv : Slv} {upd : ρ → Nat → Assign → Outcome Assign} {p : Params}

/-- The pool where the worker has the answers of the step. -/
def Pool.under (q : Pool ρ) (m : Move ρ) : Pool ρ :=
  match q.workers[m.worker]? with
  | none => q
  | some l => ⟨q.storage, q.workers.set m.worker (l.under m)⟩

theorem move_eq (q : Pool ρ) (m : Move ρ) :
    q.move g slv upd p m = (q.under m).step g slv upd p m.worker := by
  unfold Pool.move Pool.under Pool.step
  cases h : q.workers[m.worker]? with
  | none => simp only [h]
  | some l =>
    have hlt : m.worker < q.workers.length := (List.getElem?_eq_some_iff.1 h).1
    simp only [List.getElem?_set_self hlt, List.set_set]

theorem CallOk.under {n : Nat} {c : Call ρ} {m : Move ρ} (h : EvictOk n m.evict) :
    CallOk n (c.under m) := fun _ => h

theorem Pend.under {l : Local ρ} {m : Move ρ} {e : Entry} : Pend (l.under m) e ↔ Pend l e := by
  obtain ⟨pc, todo, x0, cmp0, passes, trace⟩ := l
  cases pc <;> rfl

theorem Held.under {l : Local ρ} {m : Move ρ} {b : Nat} : Held (l.under m) b ↔ Held l b := by
  obtain ⟨pc, todo, x0, cmp0, passes, trace⟩ := l
  cases pc <;> rfl

theorem LocalOk.under {n : Nat} {seen : Assign → Prop} {s : Storage} {l : Local ρ} {m : Move ρ}
    (hm : EvictOk n m.evict) (h : LocalOk g n False seen s l) :
    LocalOk g n False seen s (l.under m) := by
  obtain ⟨pc, todo, x0, cmp0, passes, trace⟩ := l
  refine ⟨fun c hc' => ⟨?_, fun h => h.elim⟩, ?_⟩
  · simp only [Local.under] at hc'
    split at hc'
    · cases hc'
    · rw [List.mem_singleton.1 hc']
      exact CallOk.under hm
  · have h := h.pc
    cases pc <;> simp only [Local.under, At.under, AtOk] at h ⊢
    · exact ⟨CallOk.under hm, h.2⟩
    · exact ⟨CallOk.under hm, h.2⟩
    · exact ⟨CallOk.under hm, h.2⟩
    · exact ⟨CallOk.under hm, h.2⟩
    · exact ⟨CallOk.under hm, h.2⟩

theorem Seen.under {init : List Assign} {q : Pool ρ} {m : Move ρ} (y : Assign) :
    Seen init (q.under m).workers y ↔ Seen init q.workers y := by
  unfold Pool.under
  cases h : q.workers[m.worker]? with
  | none => exact Iff.rfl
  | some l =>
    have hlt : m.worker < q.workers.length := (List.getElem?_eq_some_iff.1 h).1
    have hl : l ∈ q.workers := List.mem_of_getElem? h
    constructor
    · rintro (hy | ⟨w, hw, hy⟩)
      · exact Or.inl hy
      · rcases List.mem_or_eq_of_mem_set hw with hw | rfl
        · exact Or.inr ⟨w, hw, hy⟩
        · exact Or.inr ⟨l, hl, hy⟩
    · rintro (hy | ⟨w, hw, hy⟩)
      · exact Or.inl hy
      · obtain ⟨j, hj⟩ := List.getElem?_of_mem hw
        by_cases hij : m.worker = j
        · subst hij
          rw [h] at hj
          obtain rfl := Option.some.inj hj
          exact Or.inr ⟨_, List.mem_set hlt _, hy⟩
        · exact Or.inr ⟨w, List.mem_of_getElem? (i := j) (by rw [List.getElem?_set_ne hij]; exact hj), hy⟩

/-- The workers after a change of answers. -/
theorem mem_under {q : Pool ρ} {m : Move ρ} {w : Local ρ} (hw : w ∈ q.workers) :
    w ∈ (q.under m).workers ∨ w.under m ∈ (q.under m).workers := by
  unfold Pool.under
  cases h : q.workers[m.worker]? with
  | none => exact Or.inl hw
  | some l =>
    have hlt : m.worker < q.workers.length := (List.getElem?_eq_some_iff.1 h).1
    obtain ⟨j, hj⟩ := List.getElem?_of_mem hw
    by_cases hij : m.worker = j
    · subst hij
      rw [h] at hj
      obtain rfl := Option.some.inj hj
      exact Or.inr (List.mem_set hlt _)
    · exact Or.inl (List.mem_of_getElem? (i := j) (by rw [List.getElem?_set_ne hij]; exact hj))

theorem under_storage (q : Pool ρ) (m : Move ρ) : (q.under m).storage = q.storage := by
  unfold Pool.under
  split <;> rfl

theorem PoolOk.under {n : Nat} {init : List Assign} {q : Pool ρ} {m : Move ρ}
    (hq : PoolOk g n False init q) (hm : EvictOk n m.evict) : PoolOk g n False init (q.under m) := by
  have hs : Seen init (q.under m).workers = Seen init q.workers := by
    funext y
    exact propext (Seen.under y)
  refine ⟨?_, ?_, ?_, ?_, ?_, ?_⟩
  · rw [under_storage]; exact hq.ranked
  · rw [under_storage, hs]
    intro w hw
    unfold Pool.under at hw
    split at hw
    · exact hq.locals w hw
    · rename_i l hl
      rcases List.mem_or_eq_of_mem_set hw with hw | rfl
      · exact hq.locals w hw
      · exact (hq.locals l (List.mem_of_getElem? hl)).under hm
  · rw [under_storage, hs]
    intro y hy hw
    rcases hq.covers y hy hw with h | ⟨l, hl, e, he, h0, hv⟩
    · exact Or.inl h
    · rcases mem_under (m := m) hl with h | h
      · exact Or.inr ⟨l, h, e, he, h0, hv⟩
      · exact Or.inr ⟨_, h, e, Pend.under.2 he, h0, hv⟩
  · rw [under_storage, hs]
    intro y hy
    rcases hq.low y hy with h | ⟨l, hl, b, hb, hle⟩
    · exact Or.inl h
    · rcases mem_under (m := m) hl with h | h
      · exact Or.inr ⟨l, h, b, hb, hle⟩
      · exact Or.inr ⟨_, h, b, Held.under.2 hb, hle⟩
  · rw [under_storage, hs]; exact hq.found
  · rw [under_storage, hs]; exact hq.real

theorem PoolOk.moves {n : Nat} {kind : SolverType} {nv : Nat} {init : List Assign}
    (hs : makeSlv kind g.csts nv = .ok slv) (hn : 5 ≤ n) :
    ∀ (ms : List (Move ρ)) (q q' : Pool ρ), (∀ m ∈ ms, EvictOk n m.evict) → PoolOk g n False init q →
    Pool.moves g slv upd p ms q = .ok q' → PoolOk g n False init q'
  | [], q, q', _, hq, h => Except.ok.inj h ▸ hq
  | m :: ms, q, q', hm, hq, h => by
    obtain ⟨q1, h1, h⟩ := bind_eq_ok.1 h
    rw [move_eq] at h1
    exact PoolOk.moves hs hn ms q1 q' (fun m' hm' => hm m' (by simp [hm']))
      ((hq.under (hm m (by simp))).step hs hn h1) h

/-! ### What one worker sees -/

/-- The vector of the pass that a step makes, if it makes one: it depends on the worker alone. -/
def passOf (slv : Slv) (upd : ρ → Nat → Assign → Outcome Assign) (l : Local ρ) (stop : Bool) :
    Outcome (Option Assign) :=
  match l.pc with
  | .main c (_ + 1) _ => if stop then .ok none else do
    let (_, _, x) ← run slv upd (c.pass l.passes) l.compute l.x
    .ok (some x)
  | .pushes c (_ + 1) => if stop then .ok none else do
    let (_, _, x) ← pushAndRun slv upd (c.pass l.passes) l.compute l.x
    .ok (some x)
  | .inner c _ (_ + 1) => if stop then .ok none else do
    let (_, _, x) ← run slv upd (c.pass l.passes) l.compute l.x
    .ok (some x)
  | _ => .ok none

theorem offer_trace (c : Call ρ) (next : Next) (st : Storage) (l : Local ρ) :
    (l.offer g c next st).trace = l.trace := by
  unfold Local.offer
  split <;> rfl

theorem trace_step {l : Local ρ} {m : Move ρ} {st s1 : Storage} {l1 : Local ρ}
    (h : (l.under m).step g slv upd p st = .ok (l1, s1)) :
    ∃ o, passOf slv upd l m.stop = .ok o ∧ l1.trace = l.trace ++ o.toList := by
  have fin : ∀ {a b : Local ρ} {s s' : Storage},
      (.ok (a, s) : Outcome (Local ρ × Storage)) = .ok (b, s') → a = b := by
    intro a b s s' h
    exact congrArg Prod.fst (Except.ok.inj h)
  obtain ⟨pc, todo, x0, cmp0, passes, trace⟩ := l
  cases pc with
  | turn =>
    refine ⟨none, rfl, ?_⟩
    simp only [Local.under, At.under, Local.step] at h
    by_cases hs : m.stop = true
    · rw [if_pos hs] at h
      rw [← fin h]
      simp
    · rw [if_neg hs] at h
      simp only at h
      split at h
      · obtain ⟨⟨x, s2⟩, _, h⟩ := bind_eq_ok.1 h
        obtain ⟨cmp, _, h⟩ := bind_eq_ok.1 h
        rw [← fin h]
        simp
      · obtain ⟨⟨x, s2⟩, _, h⟩ := bind_eq_ok.1 h
        obtain ⟨cmp, _, h⟩ := bind_eq_ok.1 h
        rw [← fin h]
        simp
  | main c k best =>
    cases k with
    | zero => exact ⟨none, rfl, by rw [← fin h]; simp [Local.under]⟩
    | succ k =>
      simp only [Local.under, At.under, Local.step, Call.under] at h
      simp only [passOf]
      split at h
      · rename_i hs
        exact ⟨none, by rw [if_pos hs], by rw [← fin h]; simp⟩
      · rename_i hs
        obtain ⟨⟨rem, cmp, x⟩, hr, h⟩ := bind_eq_ok.1 h
        refine ⟨some x, by rw [if_neg hs, hr]; rfl, ?_⟩
        simp only at h
        split at h
        · rw [← fin h, offer_trace]; rfl
        · rw [← fin h]; rfl
  | advance c best =>
    refine ⟨none, rfl, ?_⟩
    replace h : (if canAdvance st (g.hash x0) (best.getD intMax) = true then
        .ok ((⟨.insert (c.under m) ⟨x0, results g.o x0, g.hash x0, best.getD intMax⟩ .turn,
          if m.stop then [] else [m.call.under m], x0, cmp0, passes, trace⟩ : Local ρ), st)
      else .ok ((⟨.turn, if m.stop then [] else [m.call.under m], x0, cmp0, passes, trace⟩ : Local ρ), st) :
      Outcome (Local ρ × Storage)) = .ok (l1, s1) := h
    by_cases hc : canAdvance st (g.hash x0) (best.getD intMax) = true
    · rw [if_pos hc] at h
      rw [← fin h]; simp
    · rw [if_neg hc] at h
      rw [← fin h]; simp
  | pushes c k =>
    cases k with
    | zero => exact ⟨none, rfl, by rw [← fin h]; simp [Local.under]⟩
    | succ k =>
      simp only [Local.under, At.under, Local.step, Call.under] at h
      simp only [passOf]
      split at h
      · rename_i hs
        exact ⟨none, by rw [if_pos hs], by rw [← fin h]; simp⟩
      · rename_i hs
        obtain ⟨⟨rem, cmp, x⟩, hr, h⟩ := bind_eq_ok.1 h
        refine ⟨some x, by rw [if_neg hs, hr]; rfl, ?_⟩
        simp only at h
        split at h
        · rw [← fin h, offer_trace]; rfl
        · rw [← fin h]; rfl
  | inner c k j =>
    cases j with
    | zero => exact ⟨none, rfl, by rw [← fin h]; simp [Local.under]⟩
    | succ j =>
      simp only [Local.under, At.under, Local.step, Call.under] at h
      simp only [passOf]
      split at h
      · rename_i hs
        exact ⟨none, by rw [if_pos hs], by rw [← fin h]; simp⟩
      · rename_i hs
        obtain ⟨⟨rem, cmp, x⟩, hr, h⟩ := bind_eq_ok.1 h
        refine ⟨some x, by rw [if_neg hs, hr]; rfl, ?_⟩
        simp only at h
        split at h
        · rw [← fin h, offer_trace]; rfl
        · rw [← fin h]; rfl
  | insert c e next =>
    refine ⟨none, rfl, ?_⟩
    simp only [Local.under, At.under, Local.step] at h
    obtain ⟨s2, _, h⟩ := bind_eq_ok.1 h
    rw [← fin h]; simp

theorem passOf_stopped (l : Local ρ) : passOf slv upd l true = .ok none := by
  unfold passOf
  split <;> rfl

/-! ### Sequences of moves -/

/-- What a move does to the worker `i`. -/
theorem move_worker {q q' : Pool ρ} {m : Move ρ} (h : q.move g slv upd p m = .ok q') (i : Nat) (l : Local ρ)
    (hl : q.workers[i]? = some l) :
    ∃ l', q'.workers[i]? = some l' ∧
      ((m.worker ≠ i ∧ l' = l) ∨
        (m.worker = i ∧ ∃ o, passOf slv upd l m.stop = .ok o ∧ l'.trace = l.trace ++ o.toList)) := by
  unfold Pool.move at h
  by_cases hi : m.worker = i
  · subst hi
    rw [hl] at h
    obtain ⟨⟨l', s'⟩, h1, h⟩ := bind_eq_ok.1 h
    obtain rfl := Except.ok.inj h
    have hlt : m.worker < q.workers.length := (List.getElem?_eq_some_iff.1 hl).1
    exact ⟨l', List.getElem?_set_self hlt, Or.inr ⟨rfl, trace_step h1⟩⟩
  · split at h
    · obtain rfl := Except.ok.inj h
      exact ⟨l, hl, Or.inl ⟨hi, rfl⟩⟩
    · obtain ⟨⟨l', s'⟩, h1, h⟩ := bind_eq_ok.1 h
      obtain rfl := Except.ok.inj h
      exact ⟨l, by rw [List.getElem?_set_ne hi]; exact hl, Or.inl ⟨hi, rfl⟩⟩

theorem moves_append (a b : List (Move ρ)) : ∀ q : Pool ρ,
    Pool.moves g slv upd p (a ++ b) q = (Pool.moves g slv upd p a q >>= Pool.moves g slv upd p b) := by
  induction a with
  | nil => intro q; rfl
  | cons m a ih =>
    intro q
    rw [List.cons_append, Pool.moves, Pool.moves]
    cases q.move g slv upd p m with
    | error e => rfl
    | ok q1 => exact ih q1

theorem moves_grow {ms : List (Move ρ)} : ∀ {q q' : Pool ρ}, Pool.moves g slv upd p ms q = .ok q' →
    ∀ (i : Nat) (l : Local ρ), q.workers[i]? = some l →
    ∃ l', q'.workers[i]? = some l' ∧ l.trace <+: l'.trace := by
  induction ms with
  | nil =>
    intro q q' h i l hl
    obtain rfl := Except.ok.inj h
    exact ⟨l, hl, List.prefix_refl _⟩
  | cons m ms ih =>
    intro q q' h i l hl
    obtain ⟨q1, h1, h⟩ := bind_eq_ok.1 h
    obtain ⟨l1, hl1, hc⟩ := move_worker h1 i l hl
    obtain ⟨l', hl', hp⟩ := ih h i l1 hl1
    refine ⟨l', hl', List.IsPrefix.trans ?_ hp⟩
    rcases hc with ⟨_, rfl⟩ | ⟨_, o, _, ht⟩
    · exact List.prefix_refl _
    · exact ht ▸ List.prefix_append _ _

/-- A worker that makes no step is left alone. -/
theorem moves_others {ms : List (Move ρ)} {i : Nat} : ∀ {q q' : Pool ρ}, (∀ m ∈ ms, m.worker ≠ i) →
    Pool.moves g slv upd p ms q = .ok q' →
    ∀ (l : Local ρ), q.workers[i]? = some l → q'.workers[i]? = some l := by
  induction ms with
  | nil =>
    intro q q' _ h l hl
    obtain rfl := Except.ok.inj h
    exact hl
  | cons m ms ih =>
    intro q q' hm h l hl
    obtain ⟨q1, h1, h⟩ := bind_eq_ok.1 h
    obtain ⟨l1, hl1, hc⟩ := move_worker h1 i l hl
    rcases hc with ⟨_, rfl⟩ | ⟨hw, _⟩
    · exact ih (fun m' hm' => hm m' (by simp [hm'])) h _ hl1
    · exact absurd hw (hm m (by simp))

/-- A worker that sees the flag in all its steps makes no pass. -/
theorem moves_stopped {ms : List (Move ρ)} {i : Nat} : ∀ {q q' : Pool ρ},
    (∀ m ∈ ms, m.worker = i → m.stop = true) → Pool.moves g slv upd p ms q = .ok q' →
    ∀ (l : Local ρ), q.workers[i]? = some l →
    ∃ l', q'.workers[i]? = some l' ∧ l'.trace = l.trace := by
  induction ms with
  | nil =>
    intro q q' _ h l hl
    obtain rfl := Except.ok.inj h
    exact ⟨l, hl, rfl⟩
  | cons m ms ih =>
    intro q q' hm h l hl
    obtain ⟨q1, h1, h⟩ := bind_eq_ok.1 h
    obtain ⟨l1, hl1, hc⟩ := move_worker h1 i l hl
    obtain ⟨l', hl', ht⟩ := ih (fun m' hm' => hm m' (by simp [hm'])) h l1 hl1
    refine ⟨l', hl', ht.trans ?_⟩
    rcases hc with ⟨_, rfl⟩ | ⟨hw, o, ho, ht⟩
    · rfl
    · rw [hm m (by simp) hw, passOf_stopped] at ho
      obtain rfl := Except.ok.inj ho
      simpa using ht

/-- The two ends of a run. -/
theorem ending_prefix {tail rest : List (Move ρ)} {q a b : Pool ρ} (ht : Ending tail)
    (hr : ∀ m ∈ tail, m.stop = false → GoesOn rest m.worker)
    (ha : Pool.moves g slv upd p tail q = .ok a) (hb : Pool.moves g slv upd p rest q = .ok b)
    (i : Nat) (l : Local ρ) (hl : q.workers[i]? = some l) :
    ∃ la lb, a.workers[i]? = some la ∧ b.workers[i]? = some lb ∧ la.trace <+: lb.trace := by
  by_cases hex : ∃ m ∈ tail, m.worker = i ∧ m.stop = false
  · obtain ⟨m, hm, rfl, hs⟩ := hex
    obtain ⟨u, v, rfl⟩ := List.append_of_mem hm
    obtain ⟨u', m', v', rfl, hw', hs', ho'⟩ := hr m hm hs
    obtain ⟨_, hv, hp⟩ := List.pairwise_append.1 ht
    rw [moves_append] at ha hb
    obtain ⟨q1, h1, ha⟩ := bind_eq_ok.1 ha
    obtain ⟨q2, h2, ha⟩ := bind_eq_ok.1 ha
    obtain ⟨q1', h1', hb⟩ := bind_eq_ok.1 hb
    obtain ⟨q2', h2', hb⟩ := bind_eq_ok.1 hb
    have g1 := moves_others (fun m' hm' => hp m' hm' m (by simp) hs) h1 l hl
    have g1' := moves_others ho' h1' l hl
    obtain ⟨l2, k2, c2⟩ := move_worker h2 _ l g1
    obtain ⟨l2', k2', c2'⟩ := move_worker h2' _ l g1'
    rcases c2 with ⟨hne, _⟩ | ⟨_, o, ho, t2⟩
    · exact absurd rfl hne
    rcases c2' with ⟨hne, _⟩ | ⟨_, o', ho2, t2'⟩
    · exact absurd hw' hne
    rw [hs] at ho
    rw [hs', ho] at ho2
    obtain rfl := Except.ok.inj ho2
    obtain ⟨la, ka, ta⟩ := moves_stopped (i := m.worker) (fun m1 hm1 hw1 => by
      cases hst : m1.stop with
      | true => rfl
      | false =>
        exact absurd hw1.symm ((List.pairwise_cons.1 hv).1 m1 hm1 hst)) ha l2 k2
    obtain ⟨lb, kb, tb⟩ := moves_grow hb _ l2' k2'
    refine ⟨la, lb, ka, kb, ?_⟩
    rw [ta, t2, ← t2']
    exact tb
  · obtain ⟨la, ka, ta⟩ := moves_stopped (i := i) (fun m hm hw => by
      cases hst : m.stop with
      | true => rfl
      | false => exact absurd ⟨m, hm, hw, hst⟩ hex) ha l hl
    obtain ⟨lb, kb, tb⟩ := moves_grow hb _ l hl
    exact ⟨la, lb, ka, kb, ta ▸ tb⟩

end Bx.Optimizer
