import Verif.Proofs.Remaining
import Verif.Spec.Workers

/-!
# The steps of the workers
-/

namespace Bx.Optimizer

open Itm Merge SolverCtor Spec Spec.Optimizer

variable {ρ : Type}

/-- The entry that a worker is about to insert. -/
def Pend (l : Local ρ) (e : Entry) : Prop :=
  match l.pc with
  | .insert _ e' _ => e' = e
  | _ => False

/-- A number of remaining constraints that a worker has not offered yet. -/
def Held (l : Local ρ) (b : Nat) : Prop :=
  match l.pc with
  | .main _ _ best => best = some b
  | .advance _ best => best = some b
  | .insert _ e _ => e.remaining = b
  | _ => False

/-- The first entry is as good as a solution `y`. -/
def Front (g : Setting) (s : Storage) (y : Assign) : Prop :=
  ∃ f, s.best 0 = .ok f ∧ f.remaining = 0 ∧ AtLeastAsGood g.t f.value (results g.o y)

/-- What holds where a worker is. -/
def AtOk (g : Setting) (n : Nat) (seen : Assign → Prop) (s : Storage) : At ρ → Prop
  | .turn => True
  | .main c _ best | .advance c best => CallOk n c ∧ best ≠ some 0 ∧
    ∀ b, best = some b → ∃ y, seen y ∧ b = unsatisfied y g.csts
  | .pushes c _ | .inner c _ _ => CallOk n c ∧ Zero s
  | .insert c e next => CallOk n c ∧
    (e.remaining = 0 → seen e.x ∧ Within e.x g.csts ∧ e.value = results g.o e.x) ∧
    (next ≠ .turn → e.remaining = 0) ∧
    (e.remaining = intMax ∨ ∃ y, seen y ∧ e.remaining = unsatisfied y g.csts)

/-- What holds of a worker. -/
structure LocalOk (g : Setting) (n : Nat) (clean : Prop) (seen : Assign → Prop) (s : Storage)
    (l : Local ρ) : Prop where
  todo : ∀ c ∈ l.todo, CallOk n c ∧ (clean → ¬ Overwrites c)
  pc : AtOk g n seen s l.pc

variable {g : Setting} {n : Nat} {clean : Prop} {seen seen' : Assign → Prop} {s s' : Storage}

theorem AtOk.mono {a : At ρ} (h : AtOk g n seen s a) (hs : ∀ y, seen y → seen' y)
    (hz : Zero s → Zero s') : AtOk g n seen' s' a := by
  have best : ∀ best : Option Nat, (∀ b, best = some b → ∃ y, seen y ∧ b = unsatisfied y g.csts) →
      ∀ b, best = some b → ∃ y, seen' y ∧ b = unsatisfied y g.csts := by
    intro best h b hb
    obtain ⟨y, h1, h2⟩ := h b hb
    exact ⟨y, hs y h1, h2⟩
  cases a with
  | turn => exact trivial
  | main c k b => exact ⟨h.1, h.2.1, best b h.2.2⟩
  | advance c b => exact ⟨h.1, h.2.1, best b h.2.2⟩
  | pushes c k => exact ⟨h.1, hz h.2⟩
  | inner c k j => exact ⟨h.1, hz h.2⟩
  | insert c e next =>
    obtain ⟨h1, h2, h3, h4⟩ := h
    refine ⟨h1, fun h0 => ?_, h3, ?_⟩
    · obtain ⟨q1, q2, q3⟩ := h2 h0
      exact ⟨hs _ q1, q2, q3⟩
    · rcases h4 with h4 | ⟨y, q1, q2⟩
      · exact Or.inl h4
      · exact Or.inr ⟨y, hs y q1, q2⟩

theorem zero_mono (hr : Ranked g.t n s) (hn : 5 ≤ n)
    (hm : ∀ f f', s.best 0 = .ok f → s'.best 0 = .ok f' → Good g.t f' f) (hz : Zero s) :
    Zero s' := by
  intro f' hf'
  obtain ⟨_, f, _, _, hf⟩ := hr.best (i := 0) (by omega)
  rcases hm f f' hf hf' with h | ⟨h, _⟩
  · rw [hz f hf] at h; omega
  · rw [h, hz f hf]

theorem front_mono (hr : Ranked g.t n s') (hn : 5 ≤ n)
    (hm : ∀ f f', s.best 0 = .ok f → s'.best 0 = .ok f' → Good g.t f' f) {y : Assign}
    (hf : Front g s y) : Front g s' y := by
  obtain ⟨f, h1, h2, h3⟩ := hf
  obtain ⟨_, f', _, _, hf'⟩ := hr.best (i := 0) (by omega)
  rcases hm f f' h1 hf' with h | ⟨h, hv⟩
  · omega
  · exact ⟨f', hf', by omega, asGood_trans hv h3⟩

/-- What a step of the worker `l`, which becomes `l'`, does. -/
structure StepOk (g : Setting) (n : Nat) (clean : Prop) (seen : Assign → Prop) (s s' : Storage)
    (l l' : Local ρ) : Prop where
  ranked : Ranked g.t n s'
  mono : ∀ f f', s.best 0 = .ok f → s'.best 0 = .ok f' → Good g.t f' f
  data : ∀ e' ∈ s'.data, (∃ e ∈ s.data, e'.remaining = e.remaining ∧ e'.value = e.value ∧
    (clean → e'.x = e.x)) ∨ Pend l e'
  trace : ∀ y ∈ l.trace, y ∈ l'.trace
  inv : LocalOk g n clean (fun y => seen y ∨ y ∈ l'.trace) s' l'
  fresh : ∀ y ∈ l'.trace, y ∈ l.trace ∨
    ((Within y g.csts → Front g s' y ∨ ∃ e, Pend l' e ∧ e.remaining = 0 ∧
        AtLeastAsGood g.t e.value (results g.o y)) ∧
      ((∀ f, s'.best 0 = .ok f → f.remaining ≤ unsatisfied y g.csts) ∨
        ∃ b, Held l' b ∧ b ≤ unsatisfied y g.csts))
  flush : ∀ e, Pend l e → ∀ f, s'.best 0 = .ok f → Good g.t f e
  held : ∀ b, Held l b → (∀ f, s'.best 0 = .ok f → f.remaining ≤ b) ∨ ∃ b', Held l' b' ∧ b' ≤ b

/-- A step that does not touch the storage and makes no pass. -/
theorem StepOk.idle (hr : Ranked g.t n s) {l l' : Local ρ} (ht : l'.trace = l.trace)
    (hp : ∀ e, ¬ Pend l e)
    (hi : LocalOk g n clean (fun y => seen y ∨ y ∈ l'.trace) s l')
    (hh : ∀ b, Held l b → (∀ f, s.best 0 = .ok f → f.remaining ≤ b) ∨
      ∃ b', Held l' b' ∧ b' ≤ b) : StepOk g n clean seen s s l l' where
  ranked := hr
  mono := fun f f' h1 h2 => by
    have e : f = f' := Except.ok.inj (h1.symm.trans h2)
    exact e ▸ good_refl _ _
  data := fun e he => Or.inl ⟨e, he, rfl, rfl, fun _ => rfl⟩
  trace := fun y hy => by rw [ht]; exact hy
  inv := hi
  fresh := fun y hy => Or.inl (by rw [← ht]; exact hy)
  flush := fun e he => absurd he (hp e)
  held := hh

/-- A step that does not touch the storage and makes a pass that ends on `x`. -/
theorem StepOk.passed (hr : Ranked g.t n s) {l l' : Local ρ} {x : Assign}
    (ht : l'.trace = l.trace ++ [x]) (hp : ∀ e, ¬ Pend l e)
    (hi : LocalOk g n clean (fun y => seen y ∨ y ∈ l'.trace) s l')
    (hx : Within x g.csts → Front g s x ∨ ∃ e, Pend l' e ∧ e.remaining = 0 ∧
        AtLeastAsGood g.t e.value (results g.o x))
    (hx' : (∀ f, s.best 0 = .ok f → f.remaining ≤ unsatisfied x g.csts) ∨
        ∃ b, Held l' b ∧ b ≤ unsatisfied x g.csts)
    (hh : ∀ b, Held l b → (∀ f, s.best 0 = .ok f → f.remaining ≤ b) ∨
      ∃ b', Held l' b' ∧ b' ≤ b) : StepOk g n clean seen s s l l' where
  ranked := hr
  mono := fun f f' h1 h2 => by
    have e : f = f' := Except.ok.inj (h1.symm.trans h2)
    exact e ▸ good_refl _ _
  data := fun e he => Or.inl ⟨e, he, rfl, rfl, fun _ => rfl⟩
  trace := fun y hy => by rw [ht]; exact List.mem_append_left _ hy
  inv := hi
  fresh := fun y hy => by
    rw [ht] at hy
    rcases List.mem_append.1 hy with hy | hy
    · exact Or.inl hy
    · rw [List.mem_singleton] at hy
      subst hy
      exact Or.inr ⟨hx, hx'⟩
  flush := fun e he => absurd he (hp e)
  held := hh

/-- An offer of a solution. -/
theorem offer_cases (hr : Ranked g.t n s) (hn : 5 ≤ n) (c : Call ρ) (next : Next) (l : Local ρ) :
    (l.offer g c next s = { l with pc := .insert c ⟨l.x, results g.o l.x, g.hash l.x, 0⟩ next }) ∨
    (l.offer g c next s = { l with pc := next.at c } ∧ Zero s ∧ Front g s l.x) := by
  unfold Local.offer
  by_cases hi : canUpdate s (g.hash l.x) (results g.o l.x) = true
  · rw [if_pos hi]; exact Or.inl rfl
  · rw [if_neg hi]
    refine Or.inr ⟨rfl, ?_⟩
    unfold canUpdate at hi
    rw [List.all_eq_true] at hi
    push Not at hi
    obtain ⟨e, he, hq⟩ := hi
    simp only [ne_eq, Bool.not_eq_true', Bool.not_eq_false, Bool.and_eq_true,
      decide_eq_true_eq] at hq
    obtain ⟨_, f, _, _, hf⟩ := hr.best (i := 0) (by omega)
    have key : f.remaining = 0 ∧ AtLeastAsGood g.t f.value (results g.o l.x) := by
      rcases hr.front_good hf he with hg | ⟨hg, hv⟩
      · omega
      · rw [hq.1.2] at hv
        exact ⟨by omega, hv⟩
    refine ⟨fun k hk => ?_, f, hf, key⟩
    have e : f = k := Except.ok.inj (hf.symm.trans hk)
    exact e ▸ key.1

/-- A pass that ends on a solution, and its offer. -/
theorem StepOk.offered (hr : Ranked g.t n s) (hn : 5 ≤ n) {l : Local ρ} {cmp : Compute}
    {x : Assign} {c : Call ρ} {next : Next} (hnext : next ≠ .turn) (hc : CallOk n c)
    (hp : ∀ e, ¬ Pend l e) (hx : Within x g.csts)
    (ht : ∀ c ∈ l.todo, CallOk n c ∧ (clean → ¬ Overwrites c)) :
    StepOk g n clean seen s s l ((l.pass cmp x).offer g c next s) := by
  have h0 : unsatisfied x g.csts = 0 := unsatisfied_zero.2 hx
  rcases offer_cases hr hn c next (l.pass cmp x) with e | ⟨e, hz, hf⟩
  · rw [e]
    refine StepOk.passed hr (x := x) rfl hp ⟨ht, hc, fun _ => ⟨Or.inr ?_, hx, rfl⟩, fun _ => rfl,
      Or.inr ⟨x, Or.inr ?_, h0.symm⟩⟩ (fun _ => Or.inr ⟨_, rfl, rfl, asGood_refl _ _⟩)
      (Or.inr ⟨0, rfl, Nat.zero_le _⟩) (fun b _ => Or.inr ⟨0, rfl, Nat.zero_le _⟩)
    · show x ∈ l.trace ++ [x]
      simp
    · show x ∈ l.trace ++ [x]
      simp
  · rw [e]
    refine StepOk.passed hr (x := x) rfl hp ⟨ht, ?_⟩ (fun _ => Or.inl hf)
      (Or.inl fun f hf => by rw [hz f hf]; exact Nat.zero_le _)
      (fun b _ => Or.inl fun f hf => by rw [hz f hf]; exact Nat.zero_le _)
    cases next with
    | pushes k => exact ⟨hc, hz⟩
    | inner k j => exact ⟨hc, hz⟩
    | turn => exact trivial

theorem crossover_step (hr : Ranked g.t n s) (hn : 5 ≤ n) {c : Cross} (hcl : clean → ¬ Puts c)
    {x x' : Assign} (hx : crossover g c x s = .ok (x', s')) :
    Ranked g.t n s' ∧ (∀ f f', s.best 0 = .ok f → s'.best 0 = .ok f' → Good g.t f' f) ∧
    (∀ e' ∈ s'.data, ∃ e ∈ s.data, e'.remaining = e.remaining ∧ e'.value = e.value ∧
      (clean → e'.x = e.x)) := by
  obtain ⟨a, b, h1, _, h2, h3⟩ := C22_crossover_of_the_population g c x x' s s' hx
  by_cases hp : Puts c
  · obtain ⟨_, hi, id, hid, hd⟩ := h3 hp
    have ha : s.data[id]? = some a := by
      unfold ranking at h1
      rw [List.getElem?_map, hid] at h1
      exact Option.some.inj h1
    have e : s' = { s with data := s.data.set id { a with x := b } } := by
      cases s'
      simp only at hi hd
      rw [hi, hd]
    subst e
    refine ⟨hr.put ha b, fun f f' hf hf' => ?_, fun e he => ?_⟩
    · obtain ⟨f1, k1, k2, k3⟩ := best_set hf ha b
      have e : f1 = f' := Except.ok.inj (k1.symm.trans hf')
      subst e
      exact Or.inr ⟨k2, by rw [k3]; exact asGood_refl _ _⟩
    · rcases List.mem_or_eq_of_mem_set he with he | rfl
      · exact ⟨e, he, rfl, rfl, fun _ => rfl⟩
      · exact ⟨a, List.mem_of_getElem? ha, rfl, rfl, fun hc => absurd hp (hcl hc)⟩
  · rw [(h2 hp).1]
    refine ⟨hr, fun f f' h1 h2 => ?_, fun e he => ⟨e, he, rfl, rfl, fun _ => rfl⟩⟩
    have e : f = f' := Except.ok.inj (h1.symm.trans h2)
    exact e ▸ good_refl _ _

variable {kind : SolverType} {slv : Slv} {nv : Nat} {upd : ρ → Nat → Assign → Outcome Assign}
  {p : Params}

/-- A pass of the push loops that does not end on a solution. -/
theorem StepOk.missed (hr : Ranked g.t n s) (hz : Zero s) {l : Local ρ} {cmp : Compute}
    {x : Assign} {a : At ρ} (ha : AtOk g n (fun y => seen y ∨ y ∈ l.trace ++ [x]) s a)
    (hp : ∀ e, ¬ Pend l e) (hh : ∀ b, ¬ Held l b) (hx : ¬ Within x g.csts)
    (ht : ∀ c ∈ l.todo, CallOk n c ∧ (clean → ¬ Overwrites c)) :
    StepOk g n clean seen s s l { l.pass cmp x with pc := a } :=
  StepOk.passed hr (x := x) rfl hp ⟨ht, ha⟩ (fun hw => absurd hw hx)
    (Or.inl fun f hf => by rw [hz f hf]; exact Nat.zero_le _) (fun b hb => absurd hb (hh b))

theorem step_ok (hs : makeSlv kind g.csts nv = .ok slv) (hn : 5 ≤ n) (hr : Ranked g.t n s)
    {l l' : Local ρ} (hl : LocalOk g n clean seen s l)
    (h : l.step g slv upd p s = .ok (l', s')) : StepOk g n clean seen s s' l l' := by
  obtain ⟨pc, todo, x0, cmp0, passes, trace⟩ := l
  obtain ⟨ht, ha⟩ := hl
  simp only at ht ha
  cases pc with
  | turn =>
    cases todo with
    | nil =>
      have := Except.ok.inj h
      simp only [Prod.mk.injEq] at this
      obtain ⟨rfl, rfl⟩ := this
      exact StepOk.idle hr rfl (fun e he => he) ⟨ht, trivial⟩ (fun b hb => hb.elim)
    | cons c cs =>
      unfold Local.step at h
      simp only at h
      have h' : ∃ x s1, (c.cross = none ∧ s1 = s ∨
            ∃ k, c.cross = some k ∧ crossover g k x0 s = .ok (x, s1)) ∧
          (cmp0.init slv (c.mutate x) >>= fun cmp => Except.ok
            ((⟨.main c p.limit none, cs, c.mutate x, cmp, 0, trace⟩ : Local ρ), s1)) =
          .ok (l', s') := by
        split at h
        · rename_i hk
          exact ⟨x0, s, Or.inl ⟨hk, rfl⟩, h⟩
        · rename_i k hk
          obtain ⟨⟨x, s1⟩, h1, h⟩ := bind_eq_ok.1 h
          exact ⟨x, s1, Or.inr ⟨k, hk, h1⟩, h⟩
      obtain ⟨x, s1, h1, h⟩ := h'
      obtain ⟨cmp, _, h⟩ := bind_eq_ok.1 h
      have := Except.ok.inj h
      simp only [Prod.mk.injEq] at this
      obtain ⟨rfl, rfl⟩ := this
      have hc := ht c (List.mem_cons_self ..)
      have key : Ranked g.t n s1 ∧
          (∀ f f', s.best 0 = .ok f → s1.best 0 = .ok f' → Good g.t f' f) ∧
          (∀ e' ∈ s1.data, ∃ e ∈ s.data, e'.remaining = e.remaining ∧ e'.value = e.value ∧
            (clean → e'.x = e.x)) := by
        rcases h1 with ⟨_, rfl⟩ | ⟨k, hk, h1⟩
        · refine ⟨hr, fun f f' h1 h2 => ?_, fun e he => ⟨e, he, rfl, rfl, fun _ => rfl⟩⟩
          have e : f = f' := Except.ok.inj (h1.symm.trans h2)
          exact e ▸ good_refl _ _
        · exact crossover_step hr hn (fun hcl hp => hc.2 hcl ⟨k, hk, hp⟩) h1
      exact
        { ranked := key.1
          mono := key.2.1
          data := fun e he => Or.inl (key.2.2 e he)
          trace := fun y hy => hy
          inv := ⟨fun d hd => ht d (List.mem_cons_of_mem _ hd), hc.1, by simp, by simp⟩
          fresh := fun y hy => Or.inl hy
          flush := fun e he => he.elim
          held := fun b hb => hb.elim }
  | main c k best =>
    obtain ⟨hc, hb, hy⟩ := ha
    have hadv : StepOk g n clean seen s s
        (⟨.main c k best, todo, x0, cmp0, passes, trace⟩ : Local ρ)
        ⟨.advance c best, todo, x0, cmp0, passes, trace⟩ :=
      StepOk.idle hr rfl (fun e he => he)
        ⟨ht, hc, hb, fun b e => by
          obtain ⟨y, q1, q2⟩ := hy b e
          exact ⟨y, Or.inl q1, q2⟩⟩
        (fun b hb => Or.inr ⟨b, hb, Nat.le_refl _⟩)
    cases k with
    | zero =>
      have := Except.ok.inj h
      simp only [Prod.mk.injEq] at this
      obtain ⟨rfl, rfl⟩ := this
      exact hadv
    | succ k =>
      simp only [Local.step] at h
      split at h
      · have := Except.ok.inj h
        simp only [Prod.mk.injEq] at this
        obtain ⟨rfl, rfl⟩ := this
        exact hadv
      · obtain ⟨⟨rem, cmp, x⟩, hrun, h⟩ := bind_eq_ok.1 h
        have hrem := (run_spec hs hrun).1
        rw [violations_eq] at hrem
        simp only at h
        split at h
        · rename_i h0
          have := Except.ok.inj h
          simp only [Prod.mk.injEq] at this
          obtain ⟨rfl, rfl⟩ := this
          exact StepOk.offered hr hn (by simp) hc (fun e he => he)
            (unsatisfied_zero.1 (by omega)) ht
        · rename_i h0
          have := Except.ok.inj h
          simp only [Prod.mk.injEq] at this
          obtain ⟨rfl, rfl⟩ := this
          have hw : ¬ Within x g.csts := fun hw => h0 (by
            rw [hrem]; exact unsatisfied_zero.2 hw)
          have hb' : (if ltInt rem best then some rem else best) ≠ some 0 := by
            split
            · simpa using h0
            · exact hb
          have hpend : ∀ b, (if ltInt rem best then some rem else best) = some b →
              ∃ y, (seen y ∨ y ∈ trace ++ [x]) ∧ b = unsatisfied y g.csts := by
            intro b hb
            split at hb
            · cases hb
              exact ⟨x, Or.inr (by simp), hrem⟩
            · obtain ⟨y, q1, q2⟩ := hy b hb
              exact ⟨y, Or.inl q1, q2⟩
          have hlow : ∃ b, (if ltInt rem best then some rem else best) = some b ∧ b ≤ rem ∧
              ∀ b', best = some b' → b ≤ b' := by
            unfold ltInt
            cases best with
            | none => exact ⟨rem, by simp, Nat.le_refl _, by simp⟩
            | some b' =>
              by_cases hlt : rem < b'
              · refine ⟨rem, by simp [hlt], Nat.le_refl _, fun b'' e => ?_⟩
                cases e; omega
              · refine ⟨b', by simp [hlt], by omega, fun b'' e => ?_⟩
                cases e; omega
          obtain ⟨b, l1, l2, l3⟩ := hlow
          split
          · exact StepOk.passed hr (x := x) rfl (fun e he => he) ⟨ht, hc, hb', hpend⟩
              (fun h => absurd h hw) (Or.inr ⟨b, l1, by omega⟩)
              (fun b' h' => Or.inr ⟨b, l1, l3 b' h'⟩)
          · exact StepOk.passed hr (x := x) rfl (fun e he => he) ⟨ht, hc, hb', hpend⟩
              (fun h => absurd h hw) (Or.inr ⟨b, l1, by omega⟩)
              (fun b' h' => Or.inr ⟨b, l1, l3 b' h'⟩)
  | advance c best =>
    obtain ⟨hc, hb, hy⟩ := ha
    simp only [Local.step] at h
    split at h
    · have := Except.ok.inj h
      simp only [Prod.mk.injEq] at this
      obtain ⟨rfl, rfl⟩ := this
      refine StepOk.idle hr rfl (fun e he => he) ⟨ht, hc, fun h0 => ?_, fun h => absurd rfl h, ?_⟩
        (fun b hb => Or.inr ⟨b, ?_, Nat.le_refl _⟩)
      · exact absurd h0 (best_remaining_ne best hb)
      · cases best with
        | none => exact Or.inl rfl
        | some b =>
          obtain ⟨y, q1, q2⟩ := hy b rfl
          exact Or.inr ⟨y, Or.inl q1, q2⟩
      · have hb : best = some b := hb
        subst hb
        rfl
    · rename_i hi
      have := Except.ok.inj h
      simp only [Prod.mk.injEq] at this
      obtain ⟨rfl, rfl⟩ := this
      refine StepOk.idle hr rfl (fun e he => he) ⟨ht, trivial⟩ (fun b hb => Or.inl fun f hf => ?_)
      have hb : best = some b := hb
      subst hb
      unfold canAdvance at hi
      rw [List.all_eq_true] at hi
      push Not at hi
      obtain ⟨e, he, hq⟩ := hi
      simp only [ne_eq, Bool.not_eq_true', Bool.not_eq_false, Bool.and_eq_true,
        decide_eq_true_eq, Option.getD_some] at hq
      rcases hr.front_good hf he with hg | ⟨hg, _⟩ <;> omega
  | pushes c k =>
    obtain ⟨hc, hz⟩ := ha
    have hturn : StepOk g n clean seen s s
        (⟨.pushes c k, todo, x0, cmp0, passes, trace⟩ : Local ρ)
        ⟨.turn, todo, x0, cmp0, passes, trace⟩ :=
      StepOk.idle hr rfl (fun e he => he) ⟨ht, trivial⟩ (fun b hb => hb.elim)
    cases k with
    | zero =>
      have := Except.ok.inj h
      simp only [Prod.mk.injEq] at this
      obtain ⟨rfl, rfl⟩ := this
      exact hturn
    | succ k =>
      simp only [Local.step] at h
      split at h
      · have := Except.ok.inj h
        simp only [Prod.mk.injEq] at this
        obtain ⟨rfl, rfl⟩ := this
        exact hturn
      · obtain ⟨⟨rem, cmp, x⟩, hrun, h⟩ := bind_eq_ok.1 h
        have hrem := (run_spec hs hrun).1
        rw [violations_eq] at hrem
        simp only at h
        split at h
        · rename_i h0
          have := Except.ok.inj h
          simp only [Prod.mk.injEq] at this
          obtain ⟨rfl, rfl⟩ := this
          exact StepOk.offered hr hn (by simp) hc (fun e he => he)
            (unsatisfied_zero.1 (by omega)) ht
        · rename_i h0
          have := Except.ok.inj h
          simp only [Prod.mk.injEq] at this
          obtain ⟨rfl, rfl⟩ := this
          exact StepOk.missed hr hz ⟨hc, hz⟩ (fun e he => he) (fun b hb => hb)
            (fun hw => h0 (by rw [hrem]; exact unsatisfied_zero.2 hw)) ht
  | inner c k j =>
    obtain ⟨hc, hz⟩ := ha
    have hpush : StepOk g n clean seen s s
        (⟨.inner c k j, todo, x0, cmp0, passes, trace⟩ : Local ρ)
        ⟨.pushes c k, todo, x0, cmp0, passes, trace⟩ :=
      StepOk.idle hr rfl (fun e he => he) ⟨ht, hc, hz⟩ (fun b hb => hb.elim)
    cases j with
    | zero =>
      have := Except.ok.inj h
      simp only [Prod.mk.injEq] at this
      obtain ⟨rfl, rfl⟩ := this
      exact hpush
    | succ j =>
      simp only [Local.step] at h
      split at h
      · have := Except.ok.inj h
        simp only [Prod.mk.injEq] at this
        obtain ⟨rfl, rfl⟩ := this
        exact hpush
      · obtain ⟨⟨rem, cmp, x⟩, hrun, h⟩ := bind_eq_ok.1 h
        have hrem := (run_spec hs hrun).1
        rw [violations_eq] at hrem
        simp only at h
        split at h
        · rename_i h0
          have := Except.ok.inj h
          simp only [Prod.mk.injEq] at this
          obtain ⟨rfl, rfl⟩ := this
          exact StepOk.offered hr hn (by simp) hc (fun e he => he)
            (unsatisfied_zero.1 (by omega)) ht
        · rename_i h0
          have := Except.ok.inj h
          simp only [Prod.mk.injEq] at this
          obtain ⟨rfl, rfl⟩ := this
          have hw : ¬ Within x g.csts := fun hw => h0 (by rw [hrem]; exact unsatisfied_zero.2 hw)
          split
          · exact StepOk.missed hr hz ⟨hc, hz⟩ (fun e he => he) (fun b hb => hb) hw ht
          · exact StepOk.missed hr hz ⟨hc, hz⟩ (fun e he => he) (fun b hb => hb) hw ht
  | insert c e next =>
    obtain ⟨hc, h1, h2, h3⟩ := ha
    obtain ⟨s1, hi, h⟩ := bind_eq_ok.1 h
    have := Except.ok.inj h
    simp only [Prod.mk.injEq] at this
    obtain ⟨rfl, rfl⟩ := this
    obtain ⟨s2, f, f', id, k1, k2, k3, k4, k5, k6, k7, _⟩ := insert_spec hr hn (hc passes) e
    have es : s2 = s1 := Except.ok.inj (k1.symm.trans hi)
    subst es
    have hfront : ∀ a, s2.best 0 = .ok a → a = f' := fun a ha => Except.ok.inj (ha.symm.trans k4)
    refine ⟨k2, fun a a' q1 q2 => ?_, fun e' he' => ?_, fun y hy => hy, ⟨ht, ?_⟩,
      fun y hy => Or.inl hy, fun e' he' a ha => ?_, fun b hb => Or.inl fun a ha => ?_⟩
    · have : a = f := Except.ok.inj (q1.symm.trans k3)
      rw [this, hfront a' q2]; exact k5
    · rw [k7] at he'
      rcases List.mem_or_eq_of_mem_set he' with he' | rfl
      · exact Or.inl ⟨e', he', rfl, rfl, fun _ => rfl⟩
      · exact Or.inr rfl
    · have hz : e.remaining = 0 → Zero s2 := by
        intro h0 a ha
        rw [hfront a ha]
        rcases k6 with k6 | ⟨k6, _⟩
        · omega
        · omega
      cases next with
      | turn => exact trivial
      | pushes k => exact ⟨hc, hz (h2 (by simp))⟩
      | inner k j => exact ⟨hc, hz (h2 (by simp))⟩
    · have : e = e' := he'
      rw [hfront a ha, ← this]; exact k6
    · have : e.remaining = b := hb
      rw [hfront a ha, ← this]
      rcases k6 with k6 | ⟨k6, _⟩ <;> omega

/-! ## The pool -/

/-- What holds of the workers and of the storage. -/
structure PoolOk (g : Setting) (n : Nat) (clean : Prop) (init : List Assign) (q : Pool ρ) :
    Prop where
  ranked : Ranked g.t n q.storage
  locals : ∀ l ∈ q.workers, LocalOk g n clean (Seen init q.workers) q.storage l
  covers : ∀ y, Seen init q.workers y → Within y g.csts → Front g q.storage y ∨
    ∃ l ∈ q.workers, ∃ e, Pend l e ∧ e.remaining = 0 ∧ AtLeastAsGood g.t e.value (results g.o y)
  low : ∀ y, Seen init q.workers y →
    (∀ f, q.storage.best 0 = .ok f → f.remaining ≤ unsatisfied y g.csts) ∨
    ∃ l ∈ q.workers, ∃ b, Held l b ∧ b ≤ unsatisfied y g.csts
  found : ∀ e ∈ q.storage.data, e.remaining = 0 → ∃ y, Seen init q.workers y ∧ Within y g.csts ∧
    e.value = results g.o y ∧ (clean → e.x = y)
  real : ∀ e ∈ q.storage.data, e.remaining = intMax ∨
    ∃ y, Seen init q.workers y ∧ e.remaining = unsatisfied y g.csts

theorem PoolOk.step {init : List Assign} {q q' : Pool ρ} {i : Nat}
    (hs : makeSlv kind g.csts nv = .ok slv) (hn : 5 ≤ n) (hq : PoolOk g n clean init q)
    (h : q.step g slv upd p i = .ok q') : PoolOk g n clean init q' := by
  unfold Pool.step at h
  split at h
  · exact Except.ok.inj h ▸ hq
  rename_i l hl
  obtain ⟨⟨l', s'⟩, h1, h⟩ := bind_eq_ok.1 h
  have e := Except.ok.inj h
  subst e
  have hmem : l ∈ q.workers := List.mem_of_getElem? hl
  have hi : i < q.workers.length := (List.getElem?_eq_some_iff.1 hl).1
  have ok := step_ok hs hn hq.ranked (hq.locals l hmem) h1
  have hnew : l' ∈ q.workers.set i l' := List.mem_set hi l'
  -- The other workers are still there.
  have hother : ∀ w ∈ q.workers, w = l ∨ w ∈ q.workers.set i l' := by
    intro w hw
    obtain ⟨j, hj⟩ := List.getElem?_of_mem hw
    by_cases hij : i = j
    · subst hij
      rw [hl] at hj
      exact Or.inl (Option.some.inj hj).symm
    · exact Or.inr (List.mem_of_getElem? (i := j) (by rw [List.getElem?_set_ne hij]; exact hj))
  have hseen : ∀ y, Seen init q.workers y → Seen init (q.workers.set i l') y := by
    rintro y (hy | ⟨w, hw, hy⟩)
    · exact Or.inl hy
    · rcases hother w hw with rfl | hw
      · exact Or.inr ⟨l', hnew, ok.trace y hy⟩
      · exact Or.inr ⟨w, hw, hy⟩
  have hseen' : ∀ y, Seen init (q.workers.set i l') y → Seen init q.workers y ∨ y ∈ l'.trace := by
    rintro y (hy | ⟨w, hw, hy⟩)
    · exact Or.inl (Or.inl hy)
    · rcases List.mem_or_eq_of_mem_set hw with hw | rfl
      · exact Or.inl (Or.inr ⟨w, hw, hy⟩)
      · exact Or.inr hy
  have htr : ∀ y ∈ l'.trace, Seen init (q.workers.set i l') y :=
    fun y hy => Or.inr ⟨l', hnew, hy⟩
  have hz := zero_mono hq.ranked hn ok.mono
  have hold : ∀ f', s'.best 0 = .ok f' → ∃ f, q.storage.best 0 = .ok f ∧ Good g.t f' f := by
    intro f' hf'
    obtain ⟨_, f, _, _, hf⟩ := hq.ranked.best (i := 0) (by omega)
    exact ⟨f, hf, ok.mono f f' hf hf'⟩
  have hpend : ∀ e, Pend l e → AtOk g n (Seen init q.workers) q.storage l.pc →
      (e.remaining = 0 → Seen init q.workers e.x ∧ Within e.x g.csts ∧ e.value = results g.o e.x) ∧
      (e.remaining = intMax ∨ ∃ y, Seen init q.workers y ∧ e.remaining = unsatisfied y g.csts) := by
    intro e he ha
    unfold Pend at he
    split at he
    · rename_i hpc
      rw [hpc] at ha
      subst he
      exact ⟨ha.2.1, ha.2.2.2⟩
    · exact he.elim
  refine ⟨ok.ranked, fun w hw => ?_, fun y hy hwy => ?_, fun y hy => ?_, fun e he h0 => ?_,
    fun e he => ?_⟩
  · rcases List.mem_or_eq_of_mem_set hw with hw | rfl
    · have := hq.locals w hw
      exact ⟨this.todo, this.pc.mono hseen hz⟩
    · refine ⟨ok.inv.todo, ok.inv.pc.mono ?_ (fun h => h)⟩
      rintro y (hy | hy)
      · exact hseen y hy
      · exact htr y hy
  · have hcov : Seen init q.workers y → Front g s' y ∨
        ∃ w ∈ q.workers.set i l', ∃ e, Pend w e ∧ e.remaining = 0 ∧
          AtLeastAsGood g.t e.value (results g.o y) := by
      intro hy
      rcases hq.covers y hy hwy with hf | ⟨w, hw, e, q1, q2, q3⟩
      · exact Or.inl (front_mono ok.ranked hn ok.mono hf)
      · rcases hother w hw with rfl | hw
        · left
          obtain ⟨_, f', _, _, hf'⟩ := ok.ranked.best (i := 0) (by omega)
          rcases ok.flush e q1 f' hf' with h | ⟨h, hv⟩
          · omega
          · exact ⟨f', hf', by omega, asGood_trans hv q3⟩
        · exact Or.inr ⟨w, hw, e, q1, q2, q3⟩
    rcases hseen' y hy with hy | hy
    · exact hcov hy
    · rcases ok.fresh y hy with hy | ⟨hy, _⟩
      · exact hcov (Or.inr ⟨l, hmem, hy⟩)
      · rcases hy hwy with h | ⟨e, he⟩
        · exact Or.inl h
        · exact Or.inr ⟨l', hnew, e, he⟩
  · have hlow : Seen init q.workers y → (∀ f, s'.best 0 = .ok f → f.remaining ≤ unsatisfied y g.csts) ∨
        ∃ w ∈ q.workers.set i l', ∃ b, Held w b ∧ b ≤ unsatisfied y g.csts := by
      intro hy
      rcases hq.low y hy with hf | ⟨w, hw, b, q1, q2⟩
      · left
        intro f' hf'
        obtain ⟨f, hf1, hf2⟩ := hold f' hf'
        have := hf f hf1
        rcases hf2 with h | ⟨h, _⟩ <;> omega
      · rcases hother w hw with rfl | hw
        · rcases ok.held b q1 with h | ⟨b', h, hb⟩
          · exact Or.inl fun f hf => Nat.le_trans (h f hf) q2
          · exact Or.inr ⟨l', hnew, b', h, Nat.le_trans hb q2⟩
        · exact Or.inr ⟨w, hw, b, q1, q2⟩
    rcases hseen' y hy with hy | hy
    · exact hlow hy
    · rcases ok.fresh y hy with hy | ⟨_, hy⟩
      · exact hlow (Or.inr ⟨l, hmem, hy⟩)
      · rcases hy with h | ⟨b, hb⟩
        · exact Or.inl h
        · exact Or.inr ⟨l', hnew, b, hb⟩
  · rcases ok.data e he with ⟨a, ha, r1, r2, r3⟩ | hp
    · obtain ⟨y, hy, hw, hv, hx⟩ := hq.found a ha (by omega)
      exact ⟨y, hseen y hy, hw, by rw [r2, hv], fun hc => by rw [r3 hc, hx hc]⟩
    · obtain ⟨q1, q2, q3⟩ := (hpend e hp (hq.locals l hmem).pc).1 h0
      exact ⟨e.x, hseen _ q1, q2, q3, fun _ => rfl⟩
  · have up : (e.remaining = intMax ∨ ∃ y, Seen init q.workers y ∧ e.remaining = unsatisfied y g.csts) →
        (e.remaining = intMax ∨ ∃ y, Seen init (q.workers.set i l') y ∧
          e.remaining = unsatisfied y g.csts) := by
      rintro (h | ⟨y, h1, h2⟩)
      · exact Or.inl h
      · exact Or.inr ⟨y, hseen y h1, h2⟩
    rcases ok.data e he with ⟨a, ha, r1, _⟩ | hp
    · exact up (by rw [r1]; exact hq.real a ha)
    · exact up (hpend e hp (hq.locals l hmem).pc).2

theorem PoolOk.steps {init : List Assign} (hs : makeSlv kind g.csts nv = .ok slv) (hn : 5 ≤ n) :
    ∀ (is : List Nat) (q q' : Pool ρ), PoolOk g n clean init q →
    Pool.steps g slv upd p is q = .ok q' → PoolOk g n clean init q'
  | [], q, q', hq, h => Except.ok.inj h ▸ hq
  | i :: is, q, q', hq, h => by
    obtain ⟨q1, h1, h⟩ := bind_eq_ok.1 h
    exact PoolOk.steps hs hn is q1 q' (hq.step hs hn h1) h

/-- When all the workers have made their turns, nothing is held. -/
theorem finished_spec {l : Local ρ} (h : l.finished = true) :
    (∀ e, ¬ Pend l e) ∧ ∀ b, ¬ Held l b := by
  obtain ⟨pc, todo, x0, cmp0, passes, trace⟩ := l
  cases pc with
  | turn => exact ⟨fun e he => he, fun b hb => hb⟩
  | _ => simp [Local.finished] at h

end Bx.Optimizer
