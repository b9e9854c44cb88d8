import Verif.Model.Overflow
import Verif.Spec.Overflow
import Verif.Proofs.Outcome

/-! Lemmas about the functions with a 32 bits `int`: the solution check and the preprocessor. -/

namespace Bx.Checked

open Merge Spec

theorem int32_of {v : Int} (h : v.natAbs ≤ 2147483647) : int32 v = .ok v := by
  unfold int32
  rw [if_pos]
  unfold intMin intMax
  omega

theorem sumAbs_nil : sumAbs [] = 0 := rfl

theorem sumAbs_cons (e : FunElem) (es : List FunElem) :
    sumAbs (e :: es) = e.factor.natAbs + sumAbs es := by
  simp [sumAbs]

theorem sumAbs_append (a b : List FunElem) : sumAbs (a ++ b) = sumAbs a + sumAbs b := by
  simp [sumAbs]

theorem sumAbs_perm {a b : List FunElem} (h : a.Perm b) : sumAbs a = sumAbs b := by
  induction h with
  | nil => rfl
  | cons x _ ih => rw [sumAbs_cons, sumAbs_cons, ih]
  | swap x y l => simp only [sumAbs_cons]; omega
  | trans _ _ h1 h2 => exact h1.trans h2

/-! ## The check of a solution -/

theorem computeFunction_eq {vars : List Int} (hv : ∀ v ∈ vars, v = 0 ∨ v = 1) :
    ∀ (fs : List FunElem) (acc : Int), sumAbs fs + acc.natAbs ≤ 2147483647 →
      computeFunction vars acc fs =
        (Lpcore.computeFunction vars fs).bind fun r => .ok (acc + r)
  | [], acc, _ => by simp [computeFunction, Lpcore.computeFunction, Except.bind]
  | f :: fs, acc, h => by
    rw [sumAbs_cons] at h
    unfold computeFunction Lpcore.computeFunction
    cases hx : vars[f.var]? with
    | none => simp [Except.bind]
    | some v =>
      have h01 := hv v (List.mem_of_getElem? hx)
      have hp : (v * f.factor).natAbs ≤ f.factor.natAbs := by
        rcases h01 with h01 | h01 <;> simp [h01]
      have ha : (acc + v * f.factor).natAbs ≤ acc.natAbs + f.factor.natAbs := by omega
      dsimp only
      rw [int32_of (by omega), ok_bind, int32_of (by omega), ok_bind,
        computeFunction_eq hv fs _ (by omega)]
      cases Lpcore.computeFunction vars fs with
      | error e => simp [Except.bind]
      | ok r =>
        simp only [ok_bind, Except.bind]
        rw [Int.add_assoc]

theorem allConstraints_eq {vars : List Int} (hv : ∀ v ∈ vars, v = 0 ∨ v = 1)
    (bad : Int → Int → Bool) :
    ∀ cs : List Constr, (∀ c ∈ cs, Small c) →
      allConstraints vars bad cs = Lpcore.allConstraints vars bad cs
  | [], _ => rfl
  | c :: cs, h => by
    unfold allConstraints Lpcore.allConstraints
    have hc := h c List.mem_cons_self
    unfold Small at hc
    rw [computeFunction_eq hv _ _ (by simp; omega),
      allConstraints_eq hv bad cs fun c hc => h c (List.mem_cons_of_mem _ hc)]
    cases Lpcore.computeFunction vars c.elems with
    | error e => simp [Except.bind]
    | ok r => simp [Except.bind]

theorem isValidSolutionImpl_eq {pb : RawProblem} (hs : AllSmall pb.eqs pb.ges pb.les)
    {vars : List Int} (hv : ∀ v ∈ vars, v = 0 ∨ v = 1) :
    isValidSolutionImpl pb vars = Lpcore.isValidSolutionImpl pb vars := by
  unfold isValidSolutionImpl Lpcore.isValidSolutionImpl
  rw [allConstraints_eq hv _ _ hs.1, allConstraints_eq hv _ _ hs.2.1,
    allConstraints_eq hv _ _ hs.2.2]

theorem readAll_bits {c : Lpcore.Cache} : ∀ {ns : List String} {vs : List Int},
    Lpcore.readAll c ns = .ok vs → ∀ v ∈ vs, v = 0 ∨ v = 1
  | [], vs, h => by
    unfold Lpcore.readAll at h
    cases h
    simp
  | n :: ns, vs, h => by
    unfold Lpcore.readAll at h
    split at h
    · cases h
    · obtain ⟨r, hr, e⟩ := bind_eq_ok.1 h
      cases e
      intro v hv
      rcases List.mem_cons.1 hv with rfl | hv
      · split <;> simp
      · exact readAll_bits hr v hv

theorem makeVariableValue_bits {names : List String} {r : Result} {vs : List Int}
    (h : Lpcore.makeVariableValue names r = .ok vs) : ∀ v ∈ vs, v = 0 ∨ v = 1 := by
  unfold Lpcore.makeVariableValue at h
  split at h
  · cases h; simp
  · split at h
    · cases h; simp
    · obtain ⟨_, _, h⟩ := bind_eq_ok.1 h
      obtain ⟨_, _, h⟩ := bind_eq_ok.1 h
      exact readAll_bits h

theorem isValidSolution_eq {pb : RawProblem} (hs : AllSmall pb.eqs pb.ges pb.les) (r : Result) :
    isValidSolution pb r = Lpcore.isValidSolution pb r := by
  unfold isValidSolution Lpcore.isValidSolution
  split
  · rfl
  · cases r.solutions.getLast? with
    | none => rfl
    | some s =>
      dsimp only
      congr 1; funext _
      congr 1; funext _
      congr 1; funext _
      cases hv : Lpcore.makeVariableValue pb.names r with
      | error e => rfl
      | ok vs =>
        simp only [ok_bind]
        exact isValidSolutionImpl_eq hs (makeVariableValue_bits hv)

/-! ## The preprocessor -/

theorem sumFactor_eq : ∀ (es : List FunElem) (acc : Int),
    sumAbs es + acc.natAbs ≤ 2147483647 →
      sumFactor acc es = .ok ((es.map FunElem.factor).foldl (· + ·) acc)
  | [], _, _ => rfl
  | e :: es, acc, h => by
    rw [sumAbs_cons] at h
    unfold sumFactor
    rw [int32_of (by omega), ok_bind, sumFactor_eq es _ (by omega)]
    rfl

theorem reduceLoop_eq (vars : List (Nat × Bool)) :
    ∀ (es : List FunElem) (rem : Option FunElem) (res : Int),
      sumAbs es + res.natAbs ≤ 2147483647 →
        reduceLoop vars es rem res = Preprocess.reduceLoop vars es rem res
  | [], _, _, _ => rfl
  | e :: es, rem, res, h => by
    rw [sumAbs_cons] at h
    unfold reduceLoop Preprocess.reduceLoop
    cases vars.lookup e.var with
    | none =>
      dsimp only
      rw [reduceLoop_eq vars es _ _ (by omega)]
    | some b =>
      cases b
      · simp only [Bool.false_eq_true, if_false]
        rw [int32_of (by simp), ok_bind, int32_of (by simp), ok_bind, int32_of (by omega), ok_bind,
          reduceLoop_eq vars es _ _ (by omega)]
        simp
      · simp only [if_true, ite_true]
        rw [int32_of (by omega), ok_bind, int32_of (by omega), ok_bind, int32_of (by omega),
          ok_bind, reduceLoop_eq vars es _ _ (by omega)]
        congr 1
        omega

theorem reduceLoop_mem {vars : List (Nat × Bool)} :
    ∀ {es : List FunElem} {rem : Option FunElem} {res : Int} {out : Option FunElem × Int},
      Preprocess.reduceLoop vars es rem res = .ok out →
        ∀ e, out.1 = some e → e ∈ es ∨ rem = some e
  | [], rem, res, out, h, e, he => by
    unfold Preprocess.reduceLoop at h
    cases h
    exact .inr he
  | f :: es, rem, res, out, h, e, he => by
    unfold Preprocess.reduceLoop at h
    split at h
    · obtain ⟨_, _, h⟩ := bind_eq_ok.1 h
      rcases reduceLoop_mem h e he with h | h
      · exact .inl (List.mem_cons_of_mem _ h)
      · cases h
        exact .inl List.mem_cons_self
    · rcases reduceLoop_mem h e he with h | h
      · exact .inl (List.mem_cons_of_mem _ h)
      · exact .inr h

theorem natAbs_le_weight {e : FunElem} : ∀ {es : List FunElem}, e ∈ es →
    e.factor.natAbs ≤ sumAbs es
  | f :: es, h => by
    rw [sumAbs_cons]
    rcases List.mem_cons.1 h with rfl | h
    · omega
    · have := natAbs_le_weight h
      omega

theorem reduceKind_eq (k : Preprocess.Kind) (vars : List (Nat × Bool)) {c : Constr}
    (h : Small c) : reduceKind k vars c = Preprocess.reduceKind k vars c := by
  unfold Small at h
  unfold reduceKind Preprocess.reduceKind
  rw [reduceLoop_eq vars _ _ _ h]
  cases hr : Preprocess.reduceLoop vars c.elems none c.value with
  | error e => rfl
  | ok out =>
    obtain ⟨rem, res⟩ := out
    simp only [ok_bind]
    cases rem with
    | none => rfl
    | some e =>
      rcases reduceLoop_mem hr e rfl with hm | hm
      · have := natAbs_le_weight hm
        dsimp only
        rw [int32_of (by simp), ok_bind, int32_of (by simp; omega), ok_bind]
      · cases hm

/-- The constraints of the problem are small. -/
def SmallPb (pb : Problem) : Prop := AllSmall pb.eqs pb.ges pb.les

theorem SmallPb.csts {pb : Problem} (h : SmallPb pb) (k : Preprocess.Kind) :
    ∀ c ∈ Preprocess.csts pb k, Small c := by
  cases k
  · exact h.1
  · exact h.2.1
  · exact h.2.2

theorem step_eq {pb : Problem} (h : SmallPb pb) : step pb = Preprocess.step pb := by
  funext st p
  obtain ⟨k, i⟩ := p
  unfold step Preprocess.step
  dsimp only
  split
  · rfl
  · split
    · cases hc : (Preprocess.csts pb k)[i]? with
      | none => rfl
      | some c =>
        dsimp only
        rw [reduceKind_eq k _ (h.csts k c (List.mem_of_getElem? hc))]
    · rfl

theorem affects_eq {pb : Problem} (h : SmallPb pb) :
    ∀ (fuel : Nat) (st : Preprocess.St), affects pb fuel st = Preprocess.affects pb fuel st
  | 0, st => by
    unfold affects Preprocess.affects
    cases st.lifo <;> rfl
  | fuel + 1, st => by
    unfold affects Preprocess.affects
    cases st.lifo with
    | nil => rfl
    | cons top rest =>
      dsimp only
      rw [step_eq h]
      congr 1
      funext st2
      exact affects_eq h fuel st2

theorem shortcut_eq (k : Preprocess.Kind) {c : Constr} (h : Small c) :
    shortcut k c = .ok (Preprocess.shortcut k c) := by
  unfold Small at h
  have hs : sumFactor 0 c.elems = .ok (Preprocess.sumFactor c) :=
    sumFactor_eq _ _ (by simp; omega)
  unfold shortcut Preprocess.shortcut
  split
  · cases k
    · simp only [hs, ok_bind]
      split <;> rfl
    · simp only [hs, ok_bind]
      split
      · rfl
      · split <;> rfl
    · dsimp only
      split
      · rfl
      · simp only [hs, ok_bind]
        split <;> rfl
  · rfl

theorem tryStep_eq (k : Preprocess.Kind) (st : Preprocess.St) {p : Constr × Nat}
    (h : Small p.1) : tryStep k st p = Preprocess.tryStep k st p := by
  obtain ⟨c, i⟩ := p
  unfold tryStep Preprocess.tryStep
  dsimp only at h ⊢
  split
  · rw [reduceKind_eq k _ h]
  · rw [shortcut_eq k h, ok_bind]
    rcases Preprocess.shortcut k c with _ | (_ | _) <;> rfl

theorem foldlM_congr {α β : Type} {f g : β → α → Outcome β} :
    ∀ (l : List α) (b : β), (∀ b, ∀ a ∈ l, f b a = g b a) → l.foldlM f b = l.foldlM g b
  | [], _, _ => rfl
  | a :: l, b, h => by
    rw [List.foldlM_cons, List.foldlM_cons, h b a List.mem_cons_self]
    congr 1
    funext b'
    exact foldlM_congr l b' fun b a ha => h b a (List.mem_cons_of_mem _ ha)

theorem foldlM_tryStep (k : Preprocess.Kind) {cs : List Constr} (h : ∀ c ∈ cs, Small c)
    (st : Preprocess.St) :
    cs.zipIdx.foldlM (tryStep k) st = cs.zipIdx.foldlM (Preprocess.tryStep k) st :=
  foldlM_congr _ _ fun st p hp => tryStep_eq k st
    (h _ (by
      obtain ⟨c, i⟩ := p
      exact (List.mem_zipIdx hp).2.2 ▸ List.getElem_mem _))

theorem tryAffectVariable_eq {pb : Problem} (h : SmallPb pb) (st : Preprocess.St) :
    tryAffectVariable pb st = Preprocess.tryAffectVariable pb st := by
  unfold tryAffectVariable Preprocess.tryAffectVariable
  rw [foldlM_tryStep _ h.1]
  congr 1; funext st
  rw [foldlM_tryStep _ h.2.1]
  congr 1; funext st
  rw [foldlM_tryStep _ h.2.2]

theorem cstElems_eq (m : List Preprocess.Entry) : ∀ (es : List FunElem) (c : Constr),
    sumAbs es + c.value.natAbs ≤ 2147483647 →
      cstElems m c es = Preprocess.cstElems m c es
  | [], _, _ => rfl
  | e :: es, c, h => by
    rw [sumAbs_cons] at h
    unfold cstElems Preprocess.cstElems
    cases m[e.var]? with
    | none => rfl
    | some w =>
      cases w with
      | kept j => exact cstElems_eq m es _ (by dsimp only; omega)
      | gone b =>
        cases b
        · simpa using cstElems_eq m es _ (by omega)
        · dsimp only
          rw [int32_of (by omega), ok_bind, cstElems_eq m es _ (by dsimp only; omega)]
          simp

theorem cstCopy_eq (m : List Preprocess.Entry) (cnt : Nat → Int) :
    ∀ cs : List (Constr × Nat), (∀ p ∈ cs, Small p.1) →
      cstCopy m cnt cs = Preprocess.cstCopy m cnt cs
  | [], _ => rfl
  | (c, i) :: cs, h => by
    unfold cstCopy Preprocess.cstCopy
    have hc : Small c := h (c, i) List.mem_cons_self
    unfold Small at hc
    rw [cstElems_eq m c.elems { c with elems := [] } hc, cstCopy_eq m cnt cs fun p hp => h p (List.mem_cons_of_mem _ hp)]

theorem zipIdx_small {cs : List Constr} (h : ∀ c ∈ cs, Small c) :
    ∀ p ∈ cs.zipIdx, Small p.1 := fun p hp => h _ (by
  obtain ⟨c, i⟩ := p
  exact (List.mem_zipIdx hp).2.2 ▸ List.getElem_mem _)

theorem makeProblem_eq {pb : Problem} (h : SmallPb pb) (st : Preprocess.St)
    (mo : Preprocess.MergeObj) : makeProblem pb st mo = Preprocess.makeProblem pb st mo := by
  unfold makeProblem Preprocess.makeProblem
  dsimp only
  simp only [cstCopy_eq _ _ _ (zipIdx_small h.1), cstCopy_eq _ _ _ (zipIdx_small h.2.1),
    cstCopy_eq _ _ _ (zipIdx_small h.2.2)]

theorem finish_eq {pb : Problem} (h : SmallPb pb) (st : Preprocess.St) :
    finish pb st = Preprocess.finish pb st := by
  unfold finish Preprocess.finish
  simp only [affects_eq h, makeProblem_eq h]

theorem run_eq {pb : Problem} (h : SmallPb pb) : run pb = Preprocess.run pb := by
  unfold run Preprocess.run
  simp only [tryAffectVariable_eq h, affects_eq h, finish_eq h]

theorem affectVariable_eq {pb : Problem} (h : SmallPb pb) (v : Nat) (b : Bool) :
    affectVariable pb v b = Preprocess.affect pb v b := by
  unfold affectVariable Preprocess.affect
  simp only [affects_eq h, finish_eq h]

theorem split_eq {pb : Problem} (h : SmallPb pb) (v : Nat) :
    split pb v = Preprocess.split pb v := by
  unfold split Preprocess.split
  simp only [affectVariable_eq h]

theorem preprocess_eq {pb : RawProblem} (h : AllSmall pb.eqs pb.ges pb.les) :
    preprocess pb = Preprocess.preprocess pb :=
  run_eq h

/-! ## The reduced problem is small again -/

theorem cstElems_small {m : List Preprocess.Entry} : ∀ {es : List FunElem} {c c' : Constr},
    Preprocess.cstElems m c es = .ok c' →
      sumAbs c'.elems + c'.value.natAbs ≤ sumAbs c.elems + c.value.natAbs + sumAbs es
  | [], c, c', h => by
    unfold Preprocess.cstElems at h
    cases h
    simp [sumAbs_nil]
  | e :: es, c, c', h => by
    rw [sumAbs_cons]
    unfold Preprocess.cstElems at h
    split at h
    · cases h
    · have := cstElems_small h
      rw [sumAbs_append, sumAbs_cons, sumAbs_nil] at this
      dsimp only at this
      omega
    · have := cstElems_small h
      dsimp only at this
      split at this <;> omega

theorem cstCopy_small {m : List Preprocess.Entry} {cnt : Nat → Int} :
    ∀ {cs : List (Constr × Nat)} {out : List Constr}, (∀ p ∈ cs, Small p.1) →
      Preprocess.cstCopy m cnt cs = .ok out → ∀ c ∈ out, Small c
  | [], out, _, h => by
    unfold Preprocess.cstCopy at h
    cases h
    simp
  | (c, i) :: cs, out, hs, h => by
    have hs' : ∀ p ∈ cs, Small p.1 := fun p hp => hs p (List.mem_cons_of_mem _ hp)
    unfold Preprocess.cstCopy at h
    split at h
    · exact cstCopy_small hs' h
    · obtain ⟨c', hc', h⟩ := bind_eq_ok.1 h
      obtain ⟨r, hr, e⟩ := bind_eq_ok.1 h
      cases e
      intro d hd
      rcases List.mem_cons.1 hd with rfl | hd
      · have h1 := cstElems_small hc'
        have h2 := hs (c, i) List.mem_cons_self
        unfold Small at h2 ⊢
        rw [sumAbs_nil] at h1
        dsimp only at h1 h2
        omega
      · exact cstCopy_small hs' hr d hd

theorem makeProblem_small {pb pb' : Problem} {st : Preprocess.St} {mo : Preprocess.MergeObj}
    (hs : SmallPb pb) (h : Preprocess.makeProblem pb st mo = .ok pb') : SmallPb pb' := by
  unfold Preprocess.makeProblem at h
  obtain ⟨_, _, h⟩ := bind_eq_ok.1 h
  obtain ⟨_, _, h⟩ := bind_eq_ok.1 h
  obtain ⟨⟨ns, vs, an, av⟩, _, h⟩ := bind_eq_ok.1 h
  obtain ⟨_, _, h⟩ := bind_eq_ok.1 h
  obtain ⟨eqs, h1, h⟩ := bind_eq_ok.1 h
  obtain ⟨ges, h2, h⟩ := bind_eq_ok.1 h
  obtain ⟨les, h3, h⟩ := bind_eq_ok.1 h
  obtain ⟨_, _, h⟩ := bind_eq_ok.1 h
  cases h
  exact ⟨cstCopy_small (zipIdx_small hs.1) h1, cstCopy_small (zipIdx_small hs.2.1) h2,
    cstCopy_small (zipIdx_small hs.2.2) h3⟩

theorem finish_small {pb pb' : Problem} {st : Preprocess.St}
    (hs : SmallPb pb) (h : Preprocess.finish pb st = .ok pb') : SmallPb pb' := by
  unfold Preprocess.finish at h
  obtain ⟨_, _, h⟩ := bind_eq_ok.1 h
  exact makeProblem_small hs h

theorem run_small {pb pb' : Problem} (hs : SmallPb pb) (h : Preprocess.run pb = .ok pb') :
    SmallPb pb' := by
  unfold Preprocess.run at h
  split at h
  · cases h
  · obtain ⟨_, _, h⟩ := bind_eq_ok.1 h
    obtain ⟨_, _, h⟩ := bind_eq_ok.1 h
    exact finish_small hs h

theorem affect_small {pb pb' : Problem} {v : Nat} {b : Bool} (hs : SmallPb pb)
    (h : Preprocess.affect pb v b = .ok pb') : SmallPb pb' := by
  unfold Preprocess.affect at h
  obtain ⟨_, _, h⟩ := bind_eq_ok.1 h
  split at h
  · cases h
  · obtain ⟨_, _, h⟩ := bind_eq_ok.1 h
    exact finish_small hs h

end Bx.Checked
