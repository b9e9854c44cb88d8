import Verif.Proofs.Preprocess1

/-! Helper lemmas for the preprocessor, part 2: `step`, `affects`,
`try_affect_variable`. -/

namespace Bx.Preprocess

open Spec

/-- What the proofs need to know of the problem. -/
structure Ctx (pb : Problem) (Feas : Assign → Prop) : Prop where
  lt : ∀ k, ∀ c ∈ csts pb k, ∀ e ∈ c.elems, e.var < pb.values.length
  nodup : ∀ k, ∀ c ∈ csts pb k, (c.elems.map FunElem.var).Nodup
  sat : ∀ x, Feas x → ∀ k, ∀ c ∈ csts pb k, satK k c x

/-- The invariant of the propagation; `P` are the constraints still to be
visited for the variable just affected. -/
structure Inv (pb : Problem) (Feas : Assign → Prop) (st : St) (P : List (Kind × Nat)) :
    Prop where
  known : KInv pb.values.length Feas st.vars st.lifo
  cnt : ∀ k i c, (csts pb k)[i]? = some c → 0 < st.cnt k i →
    st.cnt k i = ((unknown st.vars c.elems).length : Int) + (P.count (k, i) : Int)
  zero : (∃ x, Feas x) → ∀ k i c, (csts pb k)[i]? = some c → st.cnt k i ≤ 0 →
    ∀ z, Agrees (st.vars ++ st.lifo) z → satK k c z

/-- Either the computation succeeds with `Q`, or it reaches `bx_reach` and
there is no feasible assignment. -/
def Good (Feas : Assign → Prop) (o : Outcome St) (Q : St → Prop) : Prop :=
  (∃ st, o = .ok st ∧ Q st) ∨
  (o = .error (.contract "bx_reach") ∧ ¬ ∃ x, Feas x)

theorem Good.bind {Feas : Assign → Prop} {o : Outcome St} {Q R : St → Prop}
    {f : St → Outcome St} (h : Good Feas o Q) (hf : ∀ st, Q st → Good Feas (f st) R) :
    Good Feas (o >>= f) R := by
  rcases h with ⟨st, rfl, hq⟩ | ⟨rfl, hn⟩
  · exact hf st hq
  · exact Or.inr ⟨rfl, hn⟩

theorem Good.mono {Feas : Assign → Prop} {o : Outcome St} {Q R : St → Prop}
    (h : Good Feas o Q) (hf : ∀ st, Q st → R st) : Good Feas o R := by
  rcases h with ⟨st, rfl, hq⟩ | ⟨rfl, hn⟩
  · exact Or.inl ⟨st, rfl, hf st hq⟩
  · exact Or.inr ⟨rfl, hn⟩

/-- No value is forgotten. -/
def Grows (st st' : St) : Prop :=
  ∀ p ∈ st.vars ++ st.lifo, p ∈ st'.vars ++ st'.lifo

/-- No counter is exactly one. -/
def NoOne (st : St) : Prop := ∀ k i, st.cnt k i ≠ 1

theorem agrees_sub {K L : List (Nat × Bool)} {z : Assign} (h : Agrees L z)
    (hs : ∀ p ∈ K, p ∈ L) : Agrees K z := fun p hp => h p (hs p hp)

/-- A constraint with one unknown element is removed: common part of `step` and
`tryStep`. -/
theorem reduce_good {pb : Problem} {Feas : Assign → Prop} (hc : Ctx pb Feas) {st : St}
    {P Q : List (Kind × Nat)} {k : Kind} {i : Nat} {c : Constr}
    (hinv : Inv pb Feas st P) (hci : (csts pb k)[i]? = some c)
    (h1 : (unknown st.vars c.elems).length = 1)
    (hPQ : ∀ k' i', (k', i') ≠ (k, i) → P.count (k', i') = Q.count (k', i')) :
    Good Feas (do
      let v ← reduceKind k st.vars c
      .ok { vars := st.vars, cnt := setCnt st.cnt k i 0, lifo := pushOpt st.lifo v })
      (fun st' => Inv pb Feas st' Q ∧ st'.vars = st.vars ∧ Grows st st' ∧
        st'.cnt = setCnt st.cnt k i 0) := by
  obtain ⟨e, he⟩ := List.length_eq_one_iff.mp h1
  have hmem : c ∈ csts pb k := List.mem_of_getElem? hci
  have heu : e ∈ unknown st.vars c.elems := by simp [he]
  have hec : e ∈ c.elems := (List.mem_filter.mp heu).1
  have hel : st.vars.lookup e.var = none := by
    have := (List.mem_filter.mp heu).2
    simpa using this
  have hlt := hc.lt k c hmem e hec
  -- other counters
  have hcnt : ∀ k' i' c', (csts pb k')[i']? = some c' → 0 < setCnt st.cnt k i 0 k' i' →
      setCnt st.cnt k i 0 k' i' =
        ((unknown st.vars c'.elems).length : Int) + (Q.count (k', i') : Int) := by
    intro k' i' c' h' hpos
    by_cases hk : k' = k ∧ i' = i
    · simp [setCnt, hk] at hpos
    · simp only [setCnt, if_neg hk] at hpos ⊢
      rw [hinv.cnt k' i' c' h' hpos, hPQ k' i' (by simpa using hk)]
  rcases reduceKind_one k st.vars c e he with ⟨r, hr, hs, hn⟩ | ⟨hr, hn⟩
  · left
    cases r with
    | none =>
      refine ⟨⟨st.vars, setCnt st.cnt k i 0, st.lifo⟩, by rw [hr]; rfl, ⟨⟨hinv.known, hcnt, ?_⟩, rfl, fun p hp => hp, rfl⟩⟩
      intro hF k' i' c' h' hz z hz'
      by_cases hk : k' = k ∧ i' = i
      · obtain ⟨rfl, rfl⟩ := hk
        rw [hci] at h'; cases h'
        exact hn rfl z (agrees_sub hz' (fun p hp => List.mem_append_left _ hp))
      · simp only [setCnt, if_neg hk] at hz
        exact hinv.zero hF k' i' c' h' hz z hz'
    | some b =>
      obtain ⟨hb1, hb2, hb3⟩ := hs b rfl
      obtain ⟨bi, bv⟩ := b
      simp only at hb1 hb2 hb3
      subst hb1
      have hforce : ∀ x, Feas x → x e.var = bv := fun x hx =>
        hb2 x (agrees_sub (hinv.known.agree x hx) (fun p hp => List.mem_append_left _ hp))
          (hc.sat x hx k c hmem)
      obtain ⟨p1, p2, p3⟩ := hinv.known.push hlt hel hforce
      refine ⟨⟨st.vars, setCnt st.cnt k i 0, lifoEmplace st.lifo e.var bv⟩, by rw [hr]; rfl,
        ⟨⟨p1, hcnt, ?_⟩, rfl, p2, rfl⟩⟩
      intro hF k' i' c' h' hz z hz'
      by_cases hk : k' = k ∧ i' = i
      · obtain ⟨rfl, rfl⟩ := hk
        rw [hci] at h'; cases h'
        refine hb3 z (agrees_sub hz' (fun p hp => List.mem_append_left _ hp)) ?_
        exact hz' _ (p3 hF)
      · simp only [setCnt, if_neg hk] at hz
        exact hinv.zero hF k' i' c' h' hz z (agrees_sub hz' p2)
  · right
    refine ⟨by rw [hr]; rfl, ?_⟩
    rintro ⟨x, hx⟩
    exact hn x (agrees_sub (hinv.known.agree x hx) (fun p hp => List.mem_append_left _ hp))
      (hc.sat x hx k c hmem)

theorem step_good {pb : Problem} {Feas : Assign → Prop} (hc : Ctx pb Feas) {st : St}
    {P : List (Kind × Nat)} {k : Kind} {i : Nat} {c : Constr}
    (hinv : Inv pb Feas st ((k, i) :: P)) (hci : (csts pb k)[i]? = some c)
    (hP : (k, i) ∉ P) :
    Good Feas (step pb st (k, i))
      (fun st' => Inv pb Feas st' P ∧ st'.vars = st.vars ∧ Grows st st' ∧
        (NoOne st → NoOne st')) := by
  have hP0 : P.count (k, i) = 0 := List.count_eq_zero.mpr hP
  have hPQ : ∀ k' i', (k', i') ≠ (k, i) →
      ((k, i) :: P).count (k', i') = P.count (k', i') := by
    intro k' i' hne
    rw [List.count_cons_of_ne (Ne.symm hne)]
  unfold step
  simp only
  split
  case isTrue hle =>
    left
    refine ⟨st, rfl, ⟨hinv.known, ?_, hinv.zero⟩, rfl, fun p hp => hp, id⟩
    intro k' i' c' h' hpos
    by_cases hk : (k', i') = (k, i)
    · cases hk; omega
    · rw [hinv.cnt k' i' c' h' hpos, hPQ k' i' hk]
  case isFalse hpos =>
    have hc0 := hinv.cnt k i c hci (by omega)
    rw [List.count_cons_self, hP0] at hc0
    split
    case isTrue h1 =>
      rw [hci]
      simp only
      have hu : (unknown st.vars c.elems).length = 1 := by omega
      refine (reduce_good hc hinv hci hu hPQ).mono ?_
      rintro st' ⟨a1, a2, a3, a4⟩
      refine ⟨a1, a2, a3, fun hn k' i' => ?_⟩
      rw [a4]
      unfold setCnt
      split
      · omega
      · exact hn k' i'
    case isFalse h1 =>
      left
      refine ⟨_, rfl, ⟨hinv.known, ?_, ?_⟩, rfl, fun p hp => hp, ?_⟩
      · intro k' i' c' h' hpos'
        by_cases hk : k' = k ∧ i' = i
        · obtain ⟨rfl, rfl⟩ := hk
          rw [hci] at h'; cases h'
          simp only [setCnt, and_self, if_true]
          rw [hP0]; omega
        · simp only [setCnt, if_neg hk] at hpos' ⊢
          rw [hinv.cnt k' i' c' h' hpos', hPQ k' i' (by simpa using hk)]
      · intro hF k' i' c' h' hz z hz'
        by_cases hk : k' = k ∧ i' = i
        · obtain ⟨rfl, rfl⟩ := hk
          rw [hci] at h'; cases h'
          simp only [setCnt, and_self, if_true] at hz
          -- the last unknown element was known: all elements are known
          have hu : (unknown st.vars c.elems).length = 0 := by omega
          have hu' : unknown st.vars c.elems = [] := List.length_eq_zero_iff.mp hu
          obtain ⟨x, hx⟩ := hF
          have hxs := hc.sat x hx k' c (List.mem_of_getElem? hci)
          have hxa := agrees_sub (hinv.known.agree x hx)
            (fun p (hp : p ∈ st.vars) => List.mem_append_left _ hp)
          have hza := agrees_sub hz' (fun p (hp : p ∈ st.vars) => List.mem_append_left _ hp)
          unfold satK at hxs ⊢
          rw [lhs_split hxa, hu', lhs_nil] at hxs
          rw [lhs_split hza, hu', lhs_nil]
          exact hxs
        · simp only [setCnt, if_neg hk] at hz
          exact hinv.zero hF k' i' c' h' hz z hz'
      · intro hn k' i'
        unfold setCnt
        simp only
        split
        · rename_i hk
          obtain ⟨rfl, rfl⟩ := hk
          exact h1
        · exact hn k' i'

theorem steps_good {pb : Problem} {Feas : Assign → Prop} (hc : Ctx pb Feas) :
    ∀ (P : List (Kind × Nat)) (st : St), Inv pb Feas st P → P.Nodup →
      (∀ p ∈ P, ∃ c, (csts pb p.1)[p.2]? = some c) →
      Good Feas (P.foldlM (step pb) st)
        (fun st' => Inv pb Feas st' [] ∧ st'.vars = st.vars ∧ Grows st st' ∧
          (NoOne st → NoOne st'))
  | [], st, h, _, _ => Or.inl ⟨st, rfl, h, rfl, fun _ hp => hp, id⟩
  | (k, i) :: P, st, h, hn, hv => by
    rw [List.foldlM_cons]
    obtain ⟨c, hci⟩ := hv (k, i) (by simp)
    rw [List.nodup_cons] at hn
    refine (step_good hc h hci hn.1).bind ?_
    rintro st' ⟨a1, a2, a3, a4⟩
    refine (steps_good hc P st' a1 hn.2 (fun p hp => hv p (by simp [hp]))).mono ?_
    rintro st'' ⟨b1, b2, b3, b4⟩
    exact ⟨b1, b2.trans a2, fun p hp => b3 p (a3 p hp), b4 ∘ a4⟩

/-! ### The cache of a variable -/

theorem count_cacheOf_aux (v : Nat) : ∀ (cs : List Constr) (n i : Nat),
    ((cs.zipIdx n).flatMap fun p =>
      (p.1.elems.filter fun e => e.var == v).map fun _ => p.2).count i =
    if n ≤ i then
      match cs[i - n]? with
      | some c => (c.elems.filter fun e => e.var == v).length
      | none => 0
    else 0
  | [], n, i => by simp
  | c :: cs, n, i => by
    rw [List.zipIdx_cons, List.flatMap_cons, List.count_append, count_cacheOf_aux v cs (n + 1) i]
    have hrep : ((c.elems.filter fun e => e.var == v).map fun _ => n).count i =
        if n = i then (c.elems.filter fun e => e.var == v).length else 0 := by
      rw [List.map_const', List.count_replicate]
      simp
    rw [hrep]
    by_cases h1 : n = i
    · subst h1; simp
    · by_cases h2 : n ≤ i
      · have h3 : n + 1 ≤ i := by omega
        obtain ⟨d, rfl⟩ := Nat.exists_eq_add_of_le h3
        simp [h1, show n + 1 + d - (n + 1) = d by omega, show n + 1 + d - n = d + 1 by omega,
          show n ≤ n + 1 + d by omega]
      · simp [h1, h2, show ¬ n + 1 ≤ i by omega]

theorem count_cacheOf (cs : List Constr) (v i : Nat) :
    (cacheOf cs v).count i = match cs[i]? with
      | some c => (c.elems.filter fun e => e.var == v).length
      | none => 0 := by
  unfold cacheOf
  rw [count_cacheOf_aux]
  simp

theorem count_map_pair (l : List Nat) (k k' : Kind) (i : Nat) :
    (l.map fun j => (k, j)).count (k', i) = if k = k' then l.count i else 0 := by
  induction l with
  | nil => simp
  | cons a l ih =>
    rw [List.map_cons, List.count_cons, ih, List.count_cons]
    by_cases hk : k = k'
    · subst hk; simp
    · simp [hk]

theorem count_visit (pb : Problem) (v : Nat) (k : Kind) (i : Nat) :
    (visit pb v).count (k, i) = match (csts pb k)[i]? with
      | some c => (c.elems.filter fun e => e.var == v).length
      | none => 0 := by
  unfold visit
  rw [List.count_append, List.count_append, count_map_pair, count_map_pair, count_map_pair,
    count_cacheOf, count_cacheOf, count_cacheOf]
  cases k <;> simp [csts]

theorem filter_var_le_one {es : List FunElem} (h : (es.map FunElem.var).Nodup) (v : Nat) :
    (es.filter fun e => e.var == v).length ≤ 1 := by
  have h1 := List.nodup_iff_count_le_one.mp h v
  rw [List.count_eq_countP, List.countP_map, List.countP_eq_length_filter] at h1
  exact h1

theorem visit_nodup {pb : Problem} {Feas : Assign → Prop} (hc : Ctx pb Feas) (v : Nat) :
    (visit pb v).Nodup := by
  rw [List.nodup_iff_count_le_one]
  rintro ⟨k, i⟩
  rw [count_visit]
  split
  · rename_i c h
    exact filter_var_le_one (hc.nodup k c (List.mem_of_getElem? h)) v
  · omega

theorem visit_valid {pb : Problem} {v : Nat} {p : Kind × Nat} (h : p ∈ visit pb v) :
    ∃ c, (csts pb p.1)[p.2]? = some c ∧ ∃ e ∈ c.elems, e.var = v := by
  obtain ⟨k, i⟩ := p
  have h1 := List.count_pos_iff.mpr h
  rw [count_visit] at h1
  split at h1
  · rename_i c hc
    obtain ⟨e, he⟩ := List.exists_mem_of_length_pos h1
    rw [List.mem_filter] at he
    exact ⟨c, hc, e, he.1, by simpa using he.2⟩
  · omega

theorem mem_visit {pb : Problem} {v : Nat} {k : Kind} {i : Nat} {c : Constr}
    (h : (csts pb k)[i]? = some c) {e : FunElem} (he : e ∈ c.elems) (hv : e.var = v) :
    (k, i) ∈ visit pb v := by
  rw [← List.count_pos_iff, count_visit, h]
  exact List.length_pos_of_mem (List.mem_filter.mpr ⟨he, by simp [hv]⟩)

theorem unknown_cons {vars : List (Nat × Bool)} {i : Nat} {b : Bool}
    (hi : vars.lookup i = none) : ∀ es : List FunElem,
    (unknown vars es).length =
      (unknown ((i, b) :: vars) es).length + (es.filter fun e => e.var == i).length
  | [] => rfl
  | e :: es => by
    have ih := unknown_cons hi es (b := b)
    unfold unknown at ih ⊢
    by_cases h : e.var = i
    · subst h
      have hl : ((e.var, b) :: vars).lookup e.var = some b := by simp [List.lookup]
      simp only [List.filter_cons, hl, hi, Option.isNone_none, Option.isNone_some, if_true,
        beq_self_eq_true, List.length_cons, Bool.false_eq_true, if_false]
      omega
    · have hl : ((i, b) :: vars).lookup e.var = vars.lookup e.var := by
        simp [List.lookup, beq_false_of_ne h]
      simp only [List.filter_cons, hl, beq_false_of_ne h, Bool.false_eq_true, if_false]
      split
      · simp only [List.length_cons]; omega
      · exact ih

/-! ### `affects` -/

theorem nodup_length_le {l : List Nat} (h : l.Nodup) {n : Nat} (hl : ∀ i ∈ l, i < n) :
    l.length ≤ n := by
  have hs : l ⊆ List.range n := fun i hi => List.mem_range.mpr (hl i hi)
  have := (List.subperm_of_subset h hs).length_le
  simpa using this

theorem affects_good {pb : Problem} {Feas : Assign → Prop} (hc : Ctx pb Feas) :
    ∀ (fuel : Nat) (st : St), Inv pb Feas st [] →
      pb.values.length ≤ st.vars.length + fuel →
      Good Feas (affects pb fuel st)
        (fun st' => Inv pb Feas st' [] ∧ st'.lifo = [] ∧ Grows st st' ∧
          (NoOne st → NoOne st'))
  | fuel, st, hinv, hfuel => by
    unfold affects
    split
    · rename_i hl
      exact Or.inl ⟨st, rfl, hinv, hl, fun _ hp => hp, id⟩
    · rename_i top rest hl
      have hnd := hinv.known.nodup
      have hlt := hinv.known.lt
      rw [hl] at hnd hlt
      have hperm : (st.vars ++ top :: rest).Perm (top :: (st.vars ++ rest)) := List.perm_middle
      have hnd' := (hperm.map Prod.fst).nodup_iff.mp hnd
      simp only [List.map_cons, List.nodup_cons] at hnd'
      have htop : st.vars.lookup top.1 = none := by
        rw [lookup_none_iff]
        intro hm
        apply hnd'.1
        rw [List.map_append]
        exact List.mem_append_left _ hm
      have hve : varsEmplace st.vars top.1 top.2 = top :: st.vars := by
        unfold varsEmplace; rw [htop]
      split
      · -- no fuel left: impossible
        exfalso
        have h1 := nodup_length_le hnd (n := pb.values.length) (by
          intro i hi
          obtain ⟨p, hp, rfl⟩ := List.mem_map.mp hi
          exact hlt p hp)
        simp at h1
        omega
      · rename_i fuel'
        have hinv1 : Inv pb Feas { st with vars := varsEmplace st.vars top.1 top.2, lifo := rest }
            (visit pb top.1) := by
          simp only [hve]
          refine ⟨⟨?_, ?_, ?_⟩, ?_, ?_⟩
          · simp only [List.cons_append, List.map_cons, List.nodup_cons]
            exact hnd'
          · intro p hp
            exact hlt p (hperm.mem_iff.mpr hp)
          · intro x hx p hp
            refine hinv.known.agree x hx p ?_
            rw [hl]
            exact hperm.mem_iff.mpr hp
          · intro k i c h hpos
            have h0 := hinv.cnt k i c h hpos
            simp only at hpos ⊢
            rw [h0, count_visit, h, unknown_cons htop (b := top.2)]
            simp
          · intro hF k i c h hz z hz'
            refine hinv.zero hF k i c h hz z (agrees_sub hz' fun p hp => ?_)
            rw [hl] at hp
            exact hperm.mem_iff.mp hp
        refine (steps_good hc _ _ hinv1 (visit_nodup hc _) ?_).bind ?_
        · intro p hp
          obtain ⟨c, h, _⟩ := visit_valid hp
          exact ⟨c, h⟩
        · rintro st2 ⟨a1, a2, a3, a4⟩
          have hlen : pb.values.length ≤ st2.vars.length + fuel' := by
            rw [a2]; simp only [hve, List.length_cons]; omega
          refine (affects_good hc fuel' st2 a1 hlen).mono ?_
          rintro st3 ⟨b1, b2, b3, b4⟩
          refine ⟨b1, b2, fun p hp => b3 p (a3 p ?_), fun h => b4 (a4 h)⟩
          simp only [hve]
          rw [hl] at hp
          exact hperm.mem_iff.mp hp

end Bx.Preprocess
