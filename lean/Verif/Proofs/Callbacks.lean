import Verif.Props.Workers
import Verif.Spec.Callbacks

/-!
# The thread that waits for the workers
-/

namespace Bx.Optimizer

open Itm Merge SolverCtor Spec Spec.Optimizer Params

variable {ρ : Type} {g : Setting} {n : Nat} {clean : Prop} {init : List Assign}
  {kind : SolverType} {slv : Slv} {nv : Nat} {upd : ρ → Nat → Assign → Outcome Assign}
  {p : Itm.Params}

/-- A worker takes its turns one by one. -/
theorem step_todo {l l' : Local ρ} {s s' : Storage} (h : l.step g slv upd p s = .ok (l', s')) :
    l'.todo.length ≤ l.todo.length := by
  have offer : ∀ (c : Call ρ) (next : Next) (l : Local ρ),
      (l.offer g c next s).todo = l.todo := by
    intro c next l
    unfold Local.offer
    split <;> rfl
  have pass : ∀ (l : Local ρ) cmp x, (l.pass cmp x).todo = l.todo := fun _ _ _ => rfl
  obtain ⟨pc, todo, x0, cmp0, passes, trace⟩ := l
  have fin : ∀ {l1 : Local ρ} {s1 : Storage}, (Except.ok (l1, s1) : Outcome _) = .ok (l', s') →
      l1.todo = todo → l'.todo.length ≤ todo.length := by
    intro l1 s1 h e
    have := Except.ok.inj h
    simp only [Prod.mk.injEq] at this
    obtain ⟨rfl, rfl⟩ := this
    rw [e]
  unfold Local.step at h
  split at h
  · split at h
    · exact fin h rfl
    · rename_i c cs hc
      simp only at hc
      subst hc
      have tail : ∀ {x : Assign} {st : Storage}, (do
          let cmp ← cmp0.init slv (c.mutate x)
          (.ok (({ pc := .main c p.limit none, todo := cs, x := c.mutate x, compute := cmp
                   passes := 0, trace := trace } : Local ρ), st) : Outcome _)) = .ok (l', s') →
          l'.todo.length ≤ (c :: cs).length := by
        intro x st h
        obtain ⟨cmp, _, h⟩ := bind_eq_ok.1 h
        have := Except.ok.inj h
        simp only [Prod.mk.injEq] at this
        obtain ⟨rfl, rfl⟩ := this
        exact Nat.le_succ _
      split at h
      · exact tail h
      · obtain ⟨⟨x, st⟩, _, h⟩ := bind_eq_ok.1 h
        exact tail h
  · exact fin h rfl
  · split at h
    · exact fin h rfl
    · obtain ⟨⟨rem, cmp, x⟩, _, h⟩ := bind_eq_ok.1 h
      dsimp only at h
      split at h
      · exact fin h (by rw [offer, pass])
      · exact fin h rfl
  · split at h
    · exact fin h rfl
    · exact fin h rfl
  · exact fin h rfl
  · split at h
    · exact fin h rfl
    · obtain ⟨⟨rem, cmp, x⟩, _, h⟩ := bind_eq_ok.1 h
      dsimp only at h
      split at h
      · exact fin h (by rw [offer, pass])
      · exact fin h rfl
  · exact fin h rfl
  · split at h
    · exact fin h rfl
    · obtain ⟨⟨rem, cmp, x⟩, _, h⟩ := bind_eq_ok.1 h
      dsimp only at h
      split at h
      · exact fin h (by rw [offer, pass])
      · exact fin h rfl
  · obtain ⟨st, _, h⟩ := bind_eq_ok.1 h
    exact fin h rfl

/-- `q'` comes after `q`. -/
structure Later (g : Setting) (init : List Assign) (q q' : Pool ρ) : Prop where
  mono : ∀ f f', q.storage.best 0 = .ok f → q'.storage.best 0 = .ok f' → Good g.t f' f
  seen : ∀ y, Seen init q.workers y → Seen init q'.workers y
  length : q'.workers.length = q.workers.length
  todo : ∀ (i : Nat) (l l' : Local ρ), q.workers[i]? = some l → q'.workers[i]? = some l' →
    l'.todo.length ≤ l.todo.length

theorem Later.refl (q : Pool ρ) : Later g init q q :=
  ⟨fun f f' h h' => by rw [h] at h'; cases h'; exact good_refl _ _, fun _ h => h, rfl,
    fun i l l' h h' => by rw [h] at h'; cases h'; exact Nat.le_refl _⟩

theorem Later.trans {q1 q2 q3 : Pool ρ} (hn : 5 ≤ n) (hr : Ranked g.t n q2.storage)
    (h1 : Later g init q1 q2) (h2 : Later g init q2 q3) : Later g init q1 q3 := by
  refine ⟨fun f f' hf hf' => ?_, fun y hy => h2.seen y (h1.seen y hy), h2.length.trans h1.length,
    fun i l l' hl hl' => ?_⟩
  · obtain ⟨_, f1, _, _, hf1⟩ := hr.best (i := 0) (by omega)
    exact good_trans (h2.mono f1 f' hf1 hf') (h1.mono f f1 hf hf1)
  · have hi : i < q2.workers.length := by
      rw [h1.length]; exact (List.getElem?_eq_some_iff.1 hl).1
    exact Nat.le_trans (h2.todo i _ l' (List.getElem?_eq_getElem hi) hl')
      (h1.todo i l _ hl (List.getElem?_eq_getElem hi))

theorem Later.step {q q' : Pool ρ} {i : Nat} (hs : makeSlv kind g.csts nv = .ok slv) (hn : 5 ≤ n)
    (hq : PoolOk g n clean init q) (h : q.step g slv upd p i = .ok q') : Later g init q q' := by
  unfold Pool.step at h
  split at h
  · rw [← Except.ok.inj h]; exact Later.refl q
  rename_i l hl
  obtain ⟨⟨l', s'⟩, h1, h⟩ := bind_eq_ok.1 h
  have e := Except.ok.inj h
  subst e
  have hmem : l ∈ q.workers := List.mem_of_getElem? hl
  have hi : i < q.workers.length := (List.getElem?_eq_some_iff.1 hl).1
  have ok := step_ok hs hn hq.ranked (hq.locals l hmem) h1
  refine ⟨ok.mono, ?_, by simp, fun j w w' hw hw' => ?_⟩
  · rintro y (hy | ⟨w, hw, hy⟩)
    · exact Or.inl hy
    · obtain ⟨j, hj⟩ := List.getElem?_of_mem hw
      by_cases hij : i = j
      · subst hij
        rw [hl] at hj
        obtain rfl := Option.some.inj hj
        exact Or.inr ⟨l', List.mem_set hi l', ok.trace y hy⟩
      · exact Or.inr ⟨w, List.mem_of_getElem? (i := j) (by
          rw [List.getElem?_set_ne hij]; exact hj), hy⟩
  · by_cases hij : i = j
    · subst hij
      rw [hl] at hw
      obtain rfl := Option.some.inj hw
      simp only [List.getElem?_set_self hi] at hw'
      obtain rfl := Option.some.inj hw'
      exact step_todo h1
    · simp only [List.getElem?_set_ne hij] at hw'
      rw [hw] at hw'
      obtain rfl := Option.some.inj hw'
      exact Nat.le_refl _

theorem Later.steps (hs : makeSlv kind g.csts nv = .ok slv) (hn : 5 ≤ n) :
    ∀ (is : List Nat) (q q' : Pool ρ), PoolOk g n clean init q →
    Pool.steps g slv upd p is q = .ok q' → Later g init q q'
  | [], q, q', _, h => Except.ok.inj h ▸ Later.refl q
  | i :: is, q, q', hq, h => by
    obtain ⟨q1, h1, h⟩ := bind_eq_ok.1 h
    have hq1 := hq.step hs hn h1
    exact (Later.step hs hn hq h1).trans hn hq1.ranked (Later.steps hs hn is q1 q' hq1 h)

theorem steps_append (s : Slv) : ∀ (is js : List Nat) (q q1 q2 : Pool ρ),
    Pool.steps g s upd p is q = .ok q1 → Pool.steps g s upd p js q1 = .ok q2 →
    Pool.steps g s upd p (is ++ js) q = .ok q2
  | [], js, q, q1, q2, h1, h2 => by
    rw [← Except.ok.inj h1] at h2; exact h2
  | i :: is, js, q, q1, q2, h1, h2 => by
    obtain ⟨q0, h0, h1⟩ := bind_eq_ok.1 h1
    exact bind_eq_ok.2 ⟨q0, h0, steps_append s is js q0 q1 q2 h1 h2⟩

/-- A sum of differences grows when what is subtracted gets smaller. -/
theorem sum_mapIdx_le {α : Type} (f : Nat → α → Nat) : ∀ (l l' : List α) (k : Nat),
    l'.length = l.length →
    (∀ i a a', l[i]? = some a → l'[i]? = some a' → f (k + i) a ≤ f (k + i) a') →
    (l.mapIdx fun i a => f (k + i) a).sum ≤ (l'.mapIdx fun i a => f (k + i) a).sum
  | [], [], _, _, _ => Nat.le_refl _
  | a :: l, a' :: l', k, hl, h => by
    rw [List.mapIdx_cons, List.mapIdx_cons, List.sum_cons, List.sum_cons]
    have h0 := h 0 a a' rfl rfl
    have ih := sum_mapIdx_le f l l' (k + 1) (by simpa using hl) fun i b b' hb hb' => by
      have := h (i + 1) b b' hb hb'
      have e : k + (i + 1) = k + 1 + i := by omega
      rwa [e] at this
    have e : ∀ l : List α, (l.mapIdx fun i a => f (k + (i + 1)) a) =
        l.mapIdx fun i a => f (k + 1 + i) a := by
      intro l
      congr 1
      funext i a
      congr 1
      omega
    rw [e, e]
    omega
  | [], _ :: _, _, hl, _ => by simp at hl
  | _ :: _, [], _, hl, _ => by simp at hl

theorem Later.turns {q q' : Pool ρ} (h : Later g init q q') (calls : Nat → List (Call ρ)) :
    callNumber calls q ≤ callNumber calls q' := by
  have := sum_mapIdx_le (fun i (l : Local ρ) => (calls i).length - l.todo.length) q.workers
    q'.workers 0 h.length fun i a a' ha ha' => by
      have := h.todo i a a' ha ha'
      omega
  simpa [callNumber] using this

/-- Where a message comes from. -/
def From (g : Setting) (n : Nat) (clean : Prop) (init : List Assign) (calls : Nat → List (Call ρ))
    (q q' : Pool ρ) (m : Message) : Prop :=
  ∃ q1 f, PoolOk g n clean init q1 ∧ Later g init q q1 ∧ Later g init q1 q' ∧
    q1.storage.best 0 = .ok f ∧ m = ⟨f.remaining, f.value, callNumber calls q1⟩

variable {calls : Nat → List (Call ρ)} {limit : D} {wt : Watch}

/-- What the loop does. -/
theorem watch_spec (hs : makeSlv kind g.csts nv = .ok slv) (hn : 5 ≤ n) :
    ∀ (fuel k : Nat) (q q' : Pool ρ) (ms : List Message), PoolOk g n clean init q →
    watch g slv upd p calls limit wt fuel k q = .ok (q', ms) →
    PoolOk g n clean init q' ∧ Later g init q q' ∧
    (∀ m ∈ ms, From g n clean init calls q q' m) ∧
    ms.Pairwise (fun a b => NoWorse g.t a b ∧ a.turns ≤ b.turns) ∧
    ∃ is, Pool.steps g slv upd p is q = .ok q'
  | 0, _, _, _, _, _, h => by cases h
  | fuel + 1, k, q, q', ms, hq, h => by
    obtain ⟨q1, h1, h⟩ := bind_eq_ok.1 h
    obtain ⟨f, hf, h⟩ := bind_eq_ok.1 h
    have hq1 := PoolOk.steps hs hn _ _ _ hq h1
    have hl := Later.steps hs hn _ _ _ hq h1
    dsimp only at h
    split at h
    · have e := Except.ok.inj h
      simp only [Prod.mk.injEq] at e
      obtain ⟨rfl, rfl⟩ := e
      refine ⟨hq1, hl, fun m hm => ?_, List.pairwise_singleton _ _, _, h1⟩
      obtain rfl := List.mem_singleton.1 hm
      exact ⟨q1, f, hq1, hl, Later.refl _, hf, rfl⟩
    · obtain ⟨⟨q2, ms'⟩, h2, h⟩ := bind_eq_ok.1 h
      have e := Except.ok.inj h
      simp only [Prod.mk.injEq] at e
      obtain ⟨rfl, rfl⟩ := e
      obtain ⟨k1, k2, k3, k4, is, k5⟩ := watch_spec hs hn fuel (k + 1) q1 q2 ms' hq1 h2
      refine ⟨k1, hl.trans hn hq1.ranked k2, fun m hm => ?_, ?_, _,
        steps_append slv _ _ _ _ _ h1 k5⟩
      · rcases List.mem_cons.1 hm with rfl | hm
        · exact ⟨q1, f, hq1, hl, k2, hf, rfl⟩
        · obtain ⟨q3, f3, r1, r2, r3, r4, r5⟩ := k3 m hm
          exact ⟨q3, f3, r1, hl.trans hn hq1.ranked r2, r3, r4, r5⟩
      · rw [List.pairwise_cons]
        refine ⟨fun m hm => ?_, k4⟩
        obtain ⟨q3, f3, r1, r2, r3, r4, rfl⟩ := k3 m hm
        exact ⟨r2.mono f f3 hf r4, r2.turns calls⟩

/-- The turn at which the loop ends. -/
theorem watch_length : ∀ (fuel k : Nat) (q q' : Pool ρ) (ms : List Message),
    watch g slv upd p calls limit wt fuel k q = .ok (q', ms) →
    ∃ j, ms.length = j + 1 ∧ j < fuel ∧ isTimeLimit limit (wt.clock (k + j)) = true ∧
      ∀ i < j, isTimeLimit limit (wt.clock (k + i)) = false
  | 0, _, _, _, _, h => by cases h
  | fuel + 1, k, q, q', ms, h => by
    obtain ⟨q1, h1, h⟩ := bind_eq_ok.1 h
    obtain ⟨f, hf, h⟩ := bind_eq_ok.1 h
    dsimp only at h
    split at h
    · rename_i ht
      have e := Except.ok.inj h
      simp only [Prod.mk.injEq] at e
      obtain ⟨rfl, rfl⟩ := e
      exact ⟨0, rfl, by omega, ht, fun i hi => by omega⟩
    · rename_i ht
      obtain ⟨⟨q2, ms'⟩, h2, h⟩ := bind_eq_ok.1 h
      have e := Except.ok.inj h
      simp only [Prod.mk.injEq] at e
      obtain ⟨rfl, rfl⟩ := e
      obtain ⟨j, k1, k2, k3, k4⟩ := watch_length fuel (k + 1) q1 q2 ms' h2
      refine ⟨j + 1, by simp [k1], by omega, ?_, fun i hi => ?_⟩
      · have e : k + 1 + j = k + (j + 1) := by omega
        rw [← e]; exact k3
      · cases i with
        | zero => simpa using ht
        | succ i =>
          have e : k + (i + 1) = k + 1 + i := by omega
          rw [e]; exact k4 i (by omega)

/-- The fuel does not matter beyond the turn at which the clock is over the limit. -/
theorem watch_fuel : ∀ (d fuel fuel' k : Nat) (q : Pool ρ),
    isTimeLimit limit (wt.clock (k + d)) = true → d < fuel → d < fuel' →
    watch g slv upd p calls limit wt fuel k q = watch g slv upd p calls limit wt fuel' k q
  | _, 0, _, _, _, _, h, _ => by omega
  | _, _, 0, _, _, _, _, h => by omega
  | 0, fuel + 1, fuel' + 1, k, q, ht, _, _ => by
    unfold watch
    rw [Nat.add_zero] at ht
    simp only [ht, if_true]
  | d + 1, fuel + 1, fuel' + 1, k, q, ht, h, h' => by
    have e : k + (d + 1) = k + 1 + d := by omega
    rw [e] at ht
    have ih := fun q1 => watch_fuel d fuel fuel' (k + 1) q1 ht (by omega) (by omega)
    unfold watch
    simp only [ih]

end Bx.Optimizer
