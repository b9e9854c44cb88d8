import Verif.Model.CalculatorSort
import Mathlib.Data.List.Sort
import Mathlib.Tactic.Linarith

/-!
# The sort of the reduced costs returns the sorted orders, and all of them

C69, C71 and C72 take a function that sorts the cells of a row, with an arbitrary order of the equal
ones (`Oracle.Ok`).  These theorems derive this function from the code, `std::sort` and
`std::shuffle`.
-/

namespace Bx.Mult

/-- What the standard says of `std::sort`, for a comparison that is a strict weak order: the result
is a permutation in which no element is less than one before it. -/
def StdSort (sort : (RC → RC → Bool) → List RC → List RC) : Prop :=
  ∀ less : RC → RC → Bool, (∀ a, less a a = false) →
    (∀ a b c, less a b = true → less b c = true → less a c = true) →
    (∀ a b c, less a b = false → less b c = false → less a c = false) →
    ∀ l, (sort less l).Perm l ∧ (sort less l).Pairwise fun a b => less b a = false

/-- What the standard says of `std::shuffle`: the result is a permutation. -/
def StdShuffle (shuffle : Nat → List RC → List RC) : Prop := ∀ n l, (shuffle n l).Perm l

theorem Before.refl (mode : ObjType) (a : Rat) : Before mode a a := by cases mode <;> exact le_refl _

theorem Before.trans {mode : ObjType} {a b c : Rat} (h : Before mode a b) (h' : Before mode b c) :
    Before mode a c := by
  cases mode
  · exact le_trans h' h
  · exact le_trans h h'

theorem Before.antisymm {mode : ObjType} {a b : Rat} (h : Before mode a b) (h' : Before mode b a) :
    a = b := by
  cases mode
  · exact le_antisymm h' h
  · exact le_antisymm h h'

theorem cellLess_false {mode : ObjType} {a b : RC} :
    cellLess mode b a = false ↔ Before mode a.value b.value := by
  cases mode <;> simp [cellLess, Before]

theorem stdSort_cells {mode : ObjType} {sort : (RC → RC → Bool) → List RC → List RC}
    (hs : StdSort sort) (l : List RC) :
    (sort (cellLess mode) l).Perm l ∧
      (sort (cellLess mode) l).Pairwise fun a b => Before mode a.value b.value := by
  have h := hs (cellLess mode) (fun a => by cases mode <;> simp [cellLess])
    (fun a b c => by cases mode <;> simp only [cellLess, decide_eq_true_eq] <;> intros <;> linarith)
    (fun a b c => by
      cases mode <;> simp only [cellLess, decide_eq_false_iff_not, not_lt] <;> intros <;> linarith) l
  exact ⟨h.1, h.2.imp fun h => cellLess_false.1 h⟩

theorem shuffleRuns_ok {mode : ObjType} {shuffle : Nat → List RC → List RC} (hsh : StdShuffle shuffle)
    (v : Rat) : ∀ (l : List RC) (n : Nat) (run : List RC), run ≠ [] → (∀ a ∈ run, a.value = v) →
    (run ++ l).Pairwise (fun a b => Before mode a.value b.value) →
    (shuffleRuns shuffle n run l).Perm (run ++ l) ∧
      (shuffleRuns shuffle n run l).Pairwise fun a b => Before mode a.value b.value := by
  have hrun : ∀ (n : Nat) (v : Rat) (run : List RC), (∀ a ∈ run, a.value = v) →
      (shuffle n run).Pairwise fun a b => Before mode a.value b.value := by
    intro n v run hv
    refine List.pairwise_of_forall_mem_list fun a ha b hb => ?_
    rw [hv a ((hsh n run).mem_iff.1 ha), hv b ((hsh n run).mem_iff.1 hb)]
    exact Before.refl _ _
  intro l
  induction l generalizing v with
  | nil =>
    intro n run _ hv _
    rw [List.append_nil]
    exact ⟨hsh n run, hrun n v run hv⟩
  | cons b l ih =>
    intro n run hne hv hp
    obtain ⟨r, rs, rfl⟩ := List.exists_cons_of_ne_nil hne
    unfold shuffleRuns
    simp only [List.head?_cons]
    split
    · obtain ⟨hp1, hp2⟩ := ih b.value (n + 1) [b] (by simp) (by simp)
        (List.pairwise_append.1 hp).2.1
      refine ⟨(hsh n _).append hp1, List.pairwise_append.2 ⟨hrun n v _ hv, hp2, fun a ha c hc => ?_⟩⟩
      exact (List.pairwise_append.1 hp).2.2 a ((hsh n _).mem_iff.1 ha) c (hp1.mem_iff.1 hc)
    · rename_i he
      have he := not_not.1 he
      obtain ⟨hp1, hp2⟩ := ih v n (r :: rs ++ [b]) (by simp)
        (fun a ha => by
          rcases List.mem_append.1 ha with ha | ha
          · exact hv a ha
          · rw [List.mem_singleton.1 ha, ← he]
            exact hv r (by simp)) (by simpa using hp)
      exact ⟨by simpa using hp1, hp2⟩

/-- C69.  Whatever `std::sort` and `std::shuffle` do within their specifications, `calculator_sort`
returns, and its result is a permutation of the cells with their values in the order of the mode. -/
theorem C69_calculator_sort_sorts (mode : ObjType) (sort : (RC → RC → Bool) → List RC → List RC)
    (hs : StdSort sort) (shuffle : Nat → List RC → List RC) (hsh : StdShuffle shuffle)
    (l : List RC) :
    ∃ l', calculatorSort mode sort shuffle l = .ok l' ∧ l'.Perm l ∧
      l'.Pairwise fun a b => Before mode a.value b.value := by
  unfold calculatorSort
  split
  · rename_i hl
    obtain ⟨h1, h2⟩ := stdSort_cells (mode := mode) hs l
    cases e : sort (cellLess mode) l with
    | nil => rw [e] at h1; rw [← h1.length_eq] at hl; simp at hl
    | cons a r =>
      rw [e] at h1 h2
      obtain ⟨h3, h4⟩ := shuffleRuns_ok (mode := mode) hsh a.value r 0 [a] (by simp) (by simp) h2
      exact ⟨_, rfl, h3.trans h1, h4⟩
  · rename_i hl
    refine ⟨l, rfl, List.Perm.refl _, ?_⟩
    match l with
    | [] => simp
    | [a] => simp
    | a :: b :: r => simp at hl

/-- Two sorted permutations have the same values at the same places. -/
theorem values_eq {mode : ObjType} {l l' : List RC} (hp : l'.Perm l)
    (h : l.Pairwise fun a b => Before mode a.value b.value)
    (h' : l'.Pairwise fun a b => Before mode a.value b.value) :
    l'.map RC.value = l.map RC.value := by
  refine List.Perm.eq_of_pairwise (le := Before mode) (fun a b _ _ => Before.antisymm) ?_ ?_ (hp.map _)
  · exact List.pairwise_map.2 h'
  · exact List.pairwise_map.2 h

open Classical in
/-- A shuffle that puts each run in the order of the list `l'`. -/
noncomputable def towards (l' : List RC) (_ : Nat) (run : List RC) : List RC :=
  let w := l'.filter fun a => decide (some a.value = run.head?.map RC.value)
  if w.Perm run then w else run

theorem towards_ok (l' : List RC) : StdShuffle (towards l') := by
  intro n run
  unfold towards
  dsimp only
  split
  · assumption
  · exact List.Perm.refl _

theorem towards_run {l' run : List RC} {v : Rat} {n : Nat} (hne : run ≠ []) (hv : ∀ a ∈ run, a.value = v)
    (hp : (l'.filter fun a => decide (a.value = v)).Perm run) :
    towards l' n run = l'.filter fun a => decide (a.value = v) := by
  obtain ⟨r, rs, rfl⟩ := List.exists_cons_of_ne_nil hne
  have hr := hv r (by simp)
  unfold towards
  simp only [List.head?_cons, Option.map_some, Option.some.injEq, hr]
  rw [if_pos hp]

theorem shuffleRuns_towards {mode : ObjType} {l' : List RC} : ∀ (l : List RC) (v : Rat) (n : Nat)
    (run l'' : List RC), run ≠ [] → (∀ a ∈ run, a.value = v) →
    (run ++ l).Pairwise (fun a b => Before mode a.value b.value) → l''.Perm (run ++ l) →
    l''.map RC.value = (run ++ l).map RC.value →
    (∀ a ∈ run ++ l, (l'.filter fun b => decide (b.value = a.value)) =
      l''.filter fun b => decide (b.value = a.value)) →
    shuffleRuns (towards l') n run l = l'' := by
  intro l
  induction l with
  | nil =>
    intro v n run l'' hne hv _ hp _ hf
    rw [List.append_nil] at hp hf
    obtain ⟨r, rs, rfl⟩ := List.exists_cons_of_ne_nil hne
    have hr := hf r (by simp)
    rw [hv r (by simp)] at hr
    have hall : (l''.filter fun b => decide (b.value = v)) = l'' :=
      List.filter_eq_self.2 fun a ha => by simpa using hv a (hp.mem_iff.1 ha)
    show towards l' n (r :: rs) = l''
    rw [towards_run hne hv (by rw [hr, hall]; exact hp), hr, hall]
  | cons b l ih =>
    intro v n run l'' hne hv hs hp hm hf
    obtain ⟨r, rs, rfl⟩ := List.exists_cons_of_ne_nil hne
    have hrv := hv r (by simp)
    unfold shuffleRuns
    simp only [List.head?_cons]
    split
    · rename_i hb
      rw [hrv] at hb
      have hne' : ∀ c ∈ b :: l, c.value ≠ v := by
        intro c hc e
        have h1 := (List.pairwise_append.1 hs).2.2 r (by simp) b (by simp)
        rcases List.mem_cons.1 hc with rfl | hc
        · exact hb e.symm
        · have h2 := List.rel_of_pairwise_cons (List.pairwise_append.1 hs).2.1 hc
          rw [e, ← hrv] at h2
          exact hb (hrv.symm.trans (Before.antisymm h1 h2))
      -- the first cells of `l''` have the value of the run, the others have not
      have hlen : l''.length = (r :: rs).length + (b :: l).length := by
        rw [hp.length_eq, List.length_append]
      have ht : (l''.take (r :: rs).length).map RC.value = (r :: rs).map RC.value := by
        rw [List.map_take, hm, List.map_append, List.take_left' (by simp)]
      have hd : (l''.drop (r :: rs).length).map RC.value = (b :: l).map RC.value := by
        rw [List.map_drop, hm, List.map_append, List.drop_left' (by simp)]
      have htv : ∀ a ∈ l''.take (r :: rs).length, a.value = v := by
        intro a ha
        have : a.value ∈ (r :: rs).map RC.value := by rw [← ht]; exact List.mem_map_of_mem ha
        obtain ⟨c, hc, e⟩ := List.mem_map.1 this
        rw [← e]; exact hv c hc
      have hdv : ∀ a ∈ l''.drop (r :: rs).length, a.value ≠ v := by
        intro a ha
        have : a.value ∈ (b :: l).map RC.value := by rw [← hd]; exact List.mem_map_of_mem ha
        obtain ⟨c, hc, e⟩ := List.mem_map.1 this
        rw [← e]; exact hne' c hc
      have hfl : (l''.filter fun a => decide (a.value = v)) = l''.take (r :: rs).length := by
        conv_lhs => rw [← List.take_append_drop (r :: rs).length l'']
        rw [List.filter_append, List.filter_eq_self.2 fun a ha => by simpa using htv a ha,
          List.filter_eq_nil_iff.2 fun a ha => by simpa using hdv a ha, List.append_nil]
      have hfr : ((r :: rs ++ b :: l).filter fun a => decide (a.value = v)) = r :: rs := by
        rw [List.filter_append, List.filter_eq_self.2 fun a ha => by simpa using hv a ha,
          List.filter_eq_nil_iff.2 fun a ha => by simpa using hne' a ha, List.append_nil]
      have hpr : (l''.take (r :: rs).length).Perm (r :: rs) := by
        have := hp.filter fun a => decide (a.value = v)
        rwa [hfl, hfr] at this
      have hpd : (l''.drop (r :: rs).length).Perm (b :: l) := by
        have h := hp
        rw [← List.take_append_drop (r :: rs).length l''] at h
        exact (List.perm_append_left_iff _).1 ((hpr.symm.append_right _).trans h)
      have hf0 := hf r (by simp)
      rw [hrv, hfl] at hf0
      rw [towards_run hne hv (by rw [hf0]; exact hpr), hf0,
        ih b.value (n + 1) [b] (l''.drop (r :: rs).length) (by simp) (by simp)
          (List.pairwise_append.1 hs).2.1 hpd hd ?_, List.take_append_drop]
      intro a ha
      have ha' : a ∈ b :: l := ha
      rw [hf a (List.mem_append_right _ ha')]
      conv_lhs => rw [← List.take_append_drop (r :: rs).length l'']
      rw [List.filter_append, List.filter_eq_nil_iff.2 fun c hc => by
        simpa [htv c hc] using (hne' a ha').symm, List.nil_append]
    · rename_i he
      have he := not_not.1 he
      refine ih v n (r :: rs ++ [b]) l'' (by simp) (fun a ha => ?_) (by simpa using hs)
        (by simpa using hp) (by simpa using hm) (by simpa using hf)
      rcases List.mem_append.1 ha with ha | ha
      · exact hv a ha
      · rw [List.mem_singleton.1 ha, ← he]; exact hrv

/-- C69.  Whatever `std::sort` does, each permutation of the cells with their values in the order of
the mode is the result of `calculator_sort` for some shuffles. -/
theorem C69_calculator_sort_is_any_order (mode : ObjType)
    (sort : (RC → RC → Bool) → List RC → List RC) (hs : StdSort sort) (l l' : List RC)
    (hp : l'.Perm l) (h : l'.Pairwise fun a b => Before mode a.value b.value) :
    ∃ shuffle, StdShuffle shuffle ∧ calculatorSort mode sort shuffle l = .ok l' := by
  refine ⟨towards l', towards_ok l', ?_⟩
  unfold calculatorSort
  split
  · rename_i hl
    obtain ⟨h1, h2⟩ := stdSort_cells (mode := mode) hs l
    cases e : sort (cellLess mode) l with
    | nil => rw [e] at h1; rw [← h1.length_eq] at hl; simp at hl
    | cons a r =>
      rw [e] at h1 h2
      have hp' : l'.Perm ([a] ++ r) := hp.trans h1.symm
      exact congrArg Except.ok (shuffleRuns_towards (mode := mode) r a.value 0 [a] l' (by simp)
        (by simp) h2 hp' (values_eq hp' h2 h) fun _ _ => rfl)
  · rename_i hl
    have : l' = l := by
      match l, l', hp with
      | [], l', hp => exact hp.eq_nil
      | [a], l', hp => exact List.perm_singleton.1 hp
      | a :: b :: r, _, _ => simp at hl
    rw [this]

/-- C69.  The two together: the function that C69, C71 and C72 take as the sort is the code with some
`std::sort` and some `std::shuffle`, for each mode. -/
theorem C69_oracle_is_the_code (mode : ObjType) (sort : (RC → RC → Bool) → List RC → List RC)
    (hs : StdSort sort) (o : Oracle) :
    o.Ok mode ↔ ∀ l, ∃ shuffle, StdShuffle shuffle ∧
      calculatorSort mode sort shuffle l = .ok (o.sort l) := by
  constructor
  · exact fun ho l => C69_calculator_sort_is_any_order mode sort hs l _ (ho l).1 (ho l).2
  · intro h l
    obtain ⟨shuffle, hsh, e⟩ := h l
    obtain ⟨l', e', h1, h2⟩ := C69_calculator_sort_sorts mode sort hs shuffle hsh l
    rw [e] at e'
    rw [Except.ok.inj e']
    exact ⟨h1, h2⟩

/-- There is a function as `std::sort`. -/
theorem insertionSort_stdSort :
    StdSort fun less l => l.insertionSort fun a b => less b a = false := by
  intro less h1 h2 h3 l
  refine ⟨List.perm_insertionSort _ _, ?_⟩
  haveI : IsTrans RC fun a b => less b a = false := ⟨fun a b c h h' => h3 c b a h' h⟩
  haveI : Std.Total fun a b : RC => less b a = false := ⟨fun a b => by
    by_contra hc
    simp only [not_or, Bool.not_eq_false] at hc
    have := h2 _ _ _ hc.1 hc.2
    rw [h1] at this
    cases this⟩
  exact List.pairwise_insertionSort _ l

/-- The cells of value 1 are exchanged, and the cell of value 0 stays in front. -/
example : StdShuffle (fun _ l => l.reverse) ∧
    calculatorSort .minimize (fun less l => l.insertionSort fun a b => less b a = false)
      (fun _ l => l.reverse) [⟨1, 0⟩, ⟨0, 1⟩, ⟨1, 2⟩] = .ok [⟨0, 1⟩, ⟨1, 2⟩, ⟨1, 0⟩] :=
  ⟨fun _ l => l.reverse_perm, by decide +kernel⟩

end Bx.Mult
