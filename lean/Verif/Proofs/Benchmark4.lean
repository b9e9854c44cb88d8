import Verif.Proofs.Benchmark3

/-!
# Lemmas on the lines of the file of ranks and on the run of a benchmark
-/

namespace Bx.Benchmark

open Bx.Params Bx.Utils Bx.Spec.Benchmark

/-! ## A line -/

theorem set_last (vs : List D) (junk c : D) :
    ((vs ++ [junk]).zipIdx.map fun p => (⟨p.1, p.2, 0⟩ : Res)).set vs.length ⟨c, vs.length, 0⟩ =
      lineOf (vs ++ [c]) := by
  simp [lineOf, List.zipIdx_append]

theorem readLine_ok {t : Table} {b : Bench} (h : Loaded t b) (hw : Wide t) {i : Nat}
    {r : Text × List D} (hr : t.rows[i]? = some r) {c : D} {l : List Res}
    (hl : readLine b i c = .ok l) : l = lineOf (r.2 ++ [c]) := by
  unfold readLine at hl
  obtain ⟨vs, h1, h2⟩ := bindOk.1 hl
  obtain ⟨k1, k2⟩ := mapM_getB _ _ h1
  simp only [List.length_range] at k1
  have hrl := hw r (List.mem_of_getElem? hr)
  have hsl : b.solvers.length = r.2.length := by rw [h.2.1, hrl]
  rw [hsl] at k1
  have hvs : vs = r.2 ++ [vs[r.2.length]] := by
    refine List.ext_getElem (by simp [k1]) ?_
    intro j h3 h4
    by_cases hj : j < r.2.length
    · have := k2 j j vs[j] (by
        rw [hsl, List.getElem?_range (by omega)]) (by simp)
      rw [loaded_get h hw hr (v := r.2[j]) (by simp [hj])] at this
      simp only [Except.ok.injEq] at this
      simp [hj, this]
    · have : j = r.2.length := by omega
      subst this
      simp
  rw [hvs, hsl] at h2
  rw [← Except.ok.inj h2, set_last]

theorem readLine_total {t : Table} {b : Bench} (h : Loaded t b) (hw : Wide t)
    (hs : t.solvers ≠ []) (hf : ∀ k, t.rows.length ≠ full k) {i : Nat} (hi : i < t.rows.length)
    (c : D) : ∃ l, readLine b i c = .ok l := by
  have h3 := h.2.2
  rw [if_neg hs] at h3
  obtain ⟨k, hk, _⟩ := h3.level
  have hcap : t.rows.length < b.array.capacity := by
    have h1 := h3.fits
    have h2 := hf k
    omega
  have hget : ∀ j ∈ List.range (b.solvers.length + 1),
      b.array.get i j = .ok (b.array.data.getD (i * t.solvers.length + j) .pinf) := by
    intro j hj
    have hj' := List.mem_range.1 hj
    rw [h.2.1] at hj'
    have hL : 0 < t.solvers.length := List.length_pos_iff.2 hs
    have hlt : i * t.solvers.length + j < b.array.data.length := by
      rw [h3.length]
      calc i * t.solvers.length + j ≤ i * t.solvers.length + t.solvers.length := by omega
        _ = (i + 1) * t.solvers.length := by rw [Nat.succ_mul]
        _ < b.array.capacity * t.solvers.length := Nat.mul_lt_mul_of_pos_right (by omega) hL
    unfold Dyn.get
    rw [h3.line]
    simp [hlt, List.getD_eq_getElem?_getD]
  unfold readLine
  rw [mapM_okB _ hget, okBind]
  exact ⟨_, rfl⟩

/-- The read after the last row of a full array, or in the array of no solver. -/
theorem readLine_undefined {t : Table} {b : Bench} (h : Loaded t b) {i : Nat}
    (hbad : t.solvers = [] ∨ (i + 1 = t.rows.length ∧ ∃ k, t.rows.length = full k)) (c : D) :
    ∃ w, readLine b i c = .error (.fault (.ub w)) := by
  have hlast : ∃ j ≤ t.solvers.length, b.array.data[i * b.array.lineSize + j]? = none := by
    rcases hbad with hs | ⟨hi, k, hk⟩
    · have h3 := h.2.2
      rw [if_pos hs] at h3
      exact ⟨0, Nat.zero_le _, by rw [h3]; rfl⟩
    · by_cases hs : t.solvers = []
      · have h3 := h.2.2
        rw [if_pos hs] at h3
        exact ⟨0, Nat.zero_le _, by rw [h3]; rfl⟩
      · have h3 := h.2.2
        rw [if_neg hs] at h3
        obtain ⟨k', hk', hk''⟩ := h3.level
        have hkk : k = k' := by
          have hfit := h3.fits
          rw [hk, hk'] at hfit
          rcases Nat.lt_trichotomy k k' with hlt | heq | hgt
          · rcases hk'' with h0 | h0
            · omega
            · rw [hk] at h0
              rcases Nat.lt_or_ge k (k' - 1) with hl | hl
              · have := full_mono hl; omega
              · have : k = k' - 1 := by omega
                rw [this] at h0; omega
          · exact heq
          · have := full_mono hgt; omega
        refine ⟨t.solvers.length, Nat.le_refl _, ?_⟩
        rw [h3.line, List.getElem?_eq_none_iff, h3.length, hk', ← hkk, ← hk, ← hi, Nat.succ_mul]
  obtain ⟨j, hj, hn⟩ := hlast
  have hmap : ∀ (l : List Nat), j ∈ l →
      ∃ w, (l.mapM fun j => b.array.get i j) = .error (.fault (.ub w)) := by
    intro l
    induction l with
    | nil => intro hm; simp at hm
    | cons x l ih =>
      intro hm
      rw [List.mapM_cons]
      cases hx : b.array.get i x with
      | error s =>
        refine ⟨"m_data[row * m_line_size + col]", ?_⟩
        unfold Dyn.get at hx
        split at hx
        · cases hx
        · unfold undefined at hx
          rw [← Except.error.inj hx]
          rfl
      | ok v =>
        rcases List.mem_cons.1 hm with rfl | hm
        · unfold Dyn.get at hx
          rw [hn] at hx
          simp [undefined] at hx
        · obtain ⟨w, hw⟩ := ih hm
          exact ⟨w, by rw [okBind, hw, errBind]⟩
  obtain ⟨w, hw⟩ := hmap (List.range (b.solvers.length + 1)) (by
    rw [List.mem_range, h.2.1]; omega)
  exact ⟨w, by unfold readLine; rw [hw, errBind]⟩

/-! ## The lines -/

/-- The values of a line: those of the row and the new one. -/
def lineValues (r : Text × List D) (c : D) : List D := r.2 ++ [c]

theorem before_le {t : ObjType} {l : List Res} (hp : ∀ x ∈ l, Proper x.value)
    (h : l.Pairwise fun a b => before t b a = false) :
    l.Pairwise fun a b => key t a.value ≤ key t b.value := by
  refine h.imp_of_mem ?_
  intro a b ha hb hab
  refine not_lt.1 fun hlt => ?_
  rw [(before_key (hp b hb) (hp a ha)).2 hlt] at hab
  cases hab

theorem proper_ne_nan {v : D} (h : Proper v) : v ≠ .nan := by
  intro h0; subst h0; exact h

theorem rankLines_spec {srt : Sorts} (hsrt : SortsOk srt) {t : Table} {b : Bench}
    (h : Loaded t b) (hw : Wide t) :
    ∀ (rows pre : List (Text × List D)) (cs : List (ObjType × D)) (total total' : List Nat)
      (ranks : List (List Nat)), t.rows = pre ++ rows → cs.length = rows.length →
      (∀ r ∈ rows, ∀ v ∈ r.2, Proper v) → (∀ c ∈ cs, Proper c.2) →
      rankLines srt b pre.length cs total = .ok (ranks, total') →
      ranks = ((rows.zip cs).map fun p => (lineValues p.1 p.2.2).map
        (denseRank p.2.1 (lineValues p.1 p.2.2))) ∧
      ∀ j, total'[j]? = total[j]?.map (· + (ranks.map fun r => r.getD j 0).sum)
  | [], _, [], total, total', ranks, _, _, _, _, hr => by
    simp only [rankLines, Except.ok.injEq, Prod.mk.injEq] at hr
    obtain ⟨rfl, rfl⟩ := hr
    exact ⟨rfl, fun j => by simp⟩
  | [], _, _ :: _, _, _, _, _, hc, _, _, _ => by simp at hc
  | _ :: _, _, [], _, _, _, _, hc, _, _, _ => by simp at hc
  | r :: rows, pre, (ty, c) :: cs, total, total', ranks, ht, hc, hp, hpc, hr => by
    have hrow : t.rows[pre.length]? = some r := by rw [ht]; simp
    have hvals : ∀ v ∈ lineValues r c, Proper v := by
      intro v hv
      rcases List.mem_append.1 hv with hv | hv
      · exact hp r (by simp) v hv
      · rw [List.mem_singleton.1 hv]; exact hpc (ty, c) (by simp)
    rw [rankLines] at hr
    obtain ⟨l, h1, hr⟩ := bindOk.1 hr
    have hl := readLine_ok h hw hrow h1
    subst hl
    split at hr
    · cases hr
    · obtain ⟨⟨rest, tot⟩, h2, hr⟩ := bindOk.1 hr
      simp only [Except.ok.injEq, Prod.mk.injEq] at hr
      obtain ⟨rfl, rfl⟩ := hr
      have hperm : (srt.value ty (lineOf (r.2 ++ [c]))).Perm (lineOf (lineValues r c)) :=
        hsrt.value_perm ty _
      have hpl := lineOf_proper hvals
      have hranked := rankAll_perm hvals hperm (before_le
        (fun x hx => hpl x (hperm.mem_iff.1 hx))
        (hsrt.value_sorted ty _ fun x hx => proper_ne_nan (hpl x hx)))
      have hpos := sorted_positions hsrt hranked
      obtain ⟨e1, e2⟩ := rankLines_spec hsrt h hw rows (pre ++ [r]) cs _ tot rest (by simp [ht])
        (by simpa using hc) (fun q hq => hp q (by simp [hq])) (fun q hq => hpc q (by simp [hq]))
        (by simpa using h2)
      refine ⟨by simp [hpos, e1], fun j => ?_⟩
      rw [e2 j, addRanks_get, rankAt_perm hranked, rankAt_ranked, hpos]
      cases total[j]? with
      | none => rfl
      | some n => simp [Nat.add_assoc]

theorem rankLines_total {srt : Sorts} {t : Table} {b : Bench}
    (h : Loaded t b) (hw : Wide t) (hs : t.solvers ≠ []) (hf : ∀ k, t.rows.length ≠ full k) :
    ∀ (rows pre : List (Text × List D)) (cs : List (ObjType × D)) (total : List Nat),
      t.rows = pre ++ rows → cs.length = rows.length →
      (∀ r ∈ rows, ∀ v ∈ r.2, Proper v) → (∀ c ∈ cs, Proper c.2) →
      ∃ p, rankLines srt b pre.length cs total = .ok p
  | [], _, [], total, _, _, _, _ => ⟨_, rfl⟩
  | [], _, _ :: _, _, _, hc, _, _ => by simp at hc
  | _ :: _, _, [], _, _, hc, _, _ => by simp at hc
  | r :: rows, pre, (ty, c) :: cs, total, ht, hc, hp, hpc => by
    have hrow : t.rows[pre.length]? = some r := by rw [ht]; simp
    obtain ⟨l, hl⟩ := readLine_total h hw hs hf (i := pre.length) (by rw [ht]; simp) c
    have hl' := readLine_ok h hw hrow hl
    have hvals : ∀ v ∈ r.2 ++ [c], Proper v := by
      intro v hv
      rcases List.mem_append.1 hv with hv | hv
      · exact hp r (by simp) v hv
      · rw [List.mem_singleton.1 hv]; exact hpc (ty, c) (by simp)
    have hnan : (l.any fun r => decide (r.value = .nan)) = false := by
      rw [hl', List.any_eq_false]
      intro x hx
      have := proper_ne_nan (lineOf_proper hvals x hx)
      simp [this]
    obtain ⟨p, hp'⟩ := rankLines_total (srt := srt) h hw hs hf rows (pre ++ [r]) cs
      (addRanks total (rankAll (srt.value ty l))) (by simp [ht]) (by simpa using hc)
      (fun q hq => hp q (by simp [hq])) (fun q hq => hpc q (by simp [hq]))
    simp only [List.length_append, List.length_singleton] at hp'
    rw [rankLines, hl, okBind, hnan]
    simp only [Bool.false_eq_true, if_false]
    rw [hp', okBind]
    exact ⟨_, rfl⟩

theorem length_of_gets {l l' : List Nat} {f : Nat → Nat → Nat}
    (h : ∀ j, l[j]? = l'[j]?.map (f j)) : l.length = l'.length := by
  refine Nat.le_antisymm ?_ ?_ <;> refine Nat.le_of_not_lt fun hlt => ?_
  · have := h l'.length
    simp [hlt] at this
  · have := h l.length
    simp [hlt] at this

theorem cast_sum (l : List (List Nat)) (j : Nat) :
    (((l.map fun r => r.getD j 0).sum : Nat) : Rat) =
      (l.map fun r => ((r.getD j 0 : Nat) : Rat)).sum := by
  induction l with
  | nil => simp
  | cons r rs ih => rw [List.map_cons, List.sum_cons, Nat.cast_add, ih, List.map_cons, List.sum_cons]

theorem saveStats_spec {srt : Sorts} (hsrt : SortsOk srt) {t : Table} {b : Bench}
    (h : Loaded t b) (hw : Wide t) (hne : t.rows ≠ []) {cs : List (ObjType × D)}
    (hc : cs.length = t.rows.length) (hp : ∀ r ∈ t.rows, ∀ v ∈ r.2, Proper v)
    (hpc : ∀ c ∈ cs, Proper c.2) {st : Stats} (hst : saveStats srt b cs = .ok st) :
    st.ranks = ((t.rows.zip cs).map fun p => (lineValues p.1 p.2.2).map
        (denseRank p.2.1 (lineValues p.1 p.2.2))) ∧
    st.means = ((List.range (t.solvers.length + 1)).map fun j =>
      D.fin (mean (st.ranks.map fun r => ((r.getD j 0 : Nat) : Rat)))) ∧
    st.final = st.means.map (denseRank .minimize st.means) := by
  unfold saveStats at hst
  obtain ⟨⟨ranks, total⟩, h1, h2⟩ := bindOk.1 hst
  obtain ⟨e1, e2⟩ := rankLines_spec hsrt h hw t.rows [] cs _ total ranks rfl hc hp hpc
    (by simpa using h1)
  have hst' := Except.ok.inj h2
  have hm : b.models.length = t.rows.length := by rw [h.1]; simp
  have hn : t.rows.length ≠ 0 := by simpa using hne
  have hrl : ranks.length = t.rows.length := by rw [e1]; simp [hc]
  have hmeans : (total.map fun n => meanOf n b.models.length) =
      (List.range (t.solvers.length + 1)).map fun j =>
        D.fin (mean (ranks.map fun r => ((r.getD j 0 : Nat) : Rat))) := by
    have hlen := length_of_gets e2
    rw [h.2.1, List.length_replicate] at hlen
    refine List.ext_getElem (by simp [hlen]) ?_
    intro j k1 k2
    simp only [List.length_map, List.length_range] at k1 k2
    have hj := e2 j
    rw [h.2.1, List.getElem?_replicate, if_pos k2] at hj
    have htj : total[j] = (ranks.map fun r => r.getD j 0).sum := by
      rw [List.getElem?_eq_getElem k1] at hj
      simpa using hj
    simp only [List.getElem_map, List.getElem_range, htj, meanOf, hm, if_neg hn, mean,
      List.length_map, hrl, D.fin.injEq]
    congr 1
    exact cast_sum ranks j
  have hmp : ∀ v ∈ (total.map fun n => meanOf n b.models.length), Proper v := by
    rw [hmeans]
    intro v hv
    obtain ⟨j, _, rfl⟩ := List.mem_map.1 hv
    trivial
  subst hst'
  refine ⟨e1, hmeans, ?_⟩
  have hperm : (srt.mean (lineOf (total.map fun n => meanOf n b.models.length))).Perm
      (lineOf (total.map fun n => meanOf n b.models.length)) := hsrt.mean_perm _
  have hpl := lineOf_proper hmp
  refine sorted_positions hsrt (t := .minimize) (rankAll_perm hmp hperm ?_)
  refine (hsrt.mean_sorted _ hpl).imp_of_mem ?_
  intro a b ha hb hab
  refine not_lt.1 fun hlt => ?_
  rw [(lt_key (hpl b (hperm.mem_iff.1 hb)) (hpl a (hperm.mem_iff.1 ha))).2 hlt] at hab
  cases hab

/-! ## Faults -/

/-- The computation ends or its behaviour is undefined. -/
def OkOrUb {α : Type} (x : BM α) : Prop :=
  (∃ y, x = .ok y) ∨ ∃ w, x = .error (.fault (.ub w))

theorem mapM_okOrUb {α β : Type} {f : α → BM β} : ∀ l : List α, (∀ x ∈ l, OkOrUb (f x)) →
    OkOrUb (l.mapM f)
  | [], _ => .inl ⟨[], rfl⟩
  | x :: l, h => by
    rw [List.mapM_cons]
    rcases h x (by simp) with ⟨y, hy⟩ | ⟨w, hw⟩
    · rw [hy, okBind]
      rcases mapM_okOrUb l fun z hz => h z (by simp [hz]) with ⟨ys, hys⟩ | ⟨w, hw⟩
      · rw [hys, okBind]; exact .inl ⟨_, rfl⟩
      · rw [hw, errBind]; exact .inr ⟨w, rfl⟩
    · rw [hw, errBind]; exact .inr ⟨w, rfl⟩

theorem mapM_ub {α β : Type} {f : α → BM β} : ∀ l : List α, (∀ x ∈ l, OkOrUb (f x)) →
    (∃ x ∈ l, ∃ w, f x = .error (.fault (.ub w))) → ∃ w, l.mapM f = .error (.fault (.ub w))
  | [], _, h => by obtain ⟨x, hx, _⟩ := h; simp at hx
  | x :: l, h, hx => by
    rw [List.mapM_cons]
    rcases h x (by simp) with ⟨y, hy⟩ | ⟨w, hw⟩
    · obtain ⟨z, hz, w, hw⟩ := hx
      rcases List.mem_cons.1 hz with rfl | hz
      · rw [hy] at hw; cases hw
      · obtain ⟨w', hw'⟩ := mapM_ub l (fun z hz => h z (by simp [hz])) ⟨z, hz, w, hw⟩
        exact ⟨w', by rw [hy, okBind, hw', errBind]⟩
    · exact ⟨w, by rw [hw, errBind]⟩

theorem get_okOrUb (a : Dyn) (i j : Nat) : OkOrUb (a.get i j) := by
  unfold Dyn.get
  split
  · exact .inl ⟨_, rfl⟩
  · exact .inr ⟨_, rfl⟩

theorem readLine_okOrUb (b : Bench) (i : Nat) (c : D) : OkOrUb (readLine b i c) := by
  unfold readLine
  rcases mapM_okOrUb (List.range (b.solvers.length + 1)) (f := fun j => b.array.get i j)
    fun j _ => get_okOrUb _ _ _ with ⟨y, hy⟩ | ⟨w, hw⟩
  · rw [hy, okBind]; exact .inl ⟨_, rfl⟩
  · rw [hw, errBind]; exact .inr ⟨w, rfl⟩

theorem rankLines_okOrUb (srt : Sorts) (b : Bench) : ∀ (cs : List (ObjType × D)) (i : Nat)
    (total : List Nat), OkOrUb (rankLines srt b i cs total)
  | [], _, _ => .inl ⟨_, rfl⟩
  | (t, c) :: cs, i, total => by
    rw [rankLines]
    rcases readLine_okOrUb b i c with ⟨l, hl⟩ | ⟨w, hw⟩
    · rw [hl, okBind]
      split
      · exact .inr ⟨_, rfl⟩
      · dsimp only
        rcases rankLines_okOrUb srt b cs (i + 1) (addRanks total (rankAll (srt.value t l))) with
          ⟨y, hy⟩ | ⟨w, hw⟩
        · rw [hy, okBind]; exact .inl ⟨_, rfl⟩
        · rw [hw, errBind]; exact .inr ⟨w, rfl⟩
    · rw [hw, errBind]; exact .inr ⟨w, rfl⟩

theorem rankLines_ub (srt : Sorts) (b : Bench) : ∀ (cs : List (ObjType × D)) (i k : Nat)
    (total : List Nat), k < cs.length →
    (∀ c, ∃ w, readLine b (i + k) c = .error (.fault (.ub w))) →
    ∃ w, rankLines srt b i cs total = .error (.fault (.ub w))
  | [], _, _, _, hk, _ => by simp at hk
  | (t, c) :: cs, i, 0, total, _, h => by
    obtain ⟨w, hw⟩ := h c
    rw [Nat.add_zero] at hw
    exact ⟨w, by rw [rankLines, hw, errBind]⟩
  | (t, c) :: cs, i, k + 1, total, hk, h => by
    rw [rankLines]
    rcases readLine_okOrUb b i c with ⟨l, hl⟩ | ⟨w, hw⟩
    · rw [hl, okBind]
      split
      · exact ⟨_, rfl⟩
      · obtain ⟨w, hw⟩ := rankLines_ub srt b cs (i + 1) k
          (addRanks total (rankAll (srt.value t l))) (by simpa using hk) (by
            intro c'
            have := h c'
            rwa [show i + 1 + k = i + (k + 1) by omega])
        exact ⟨w, by dsimp only; rw [hw, errBind]⟩
    · exact ⟨w, by rw [hw, errBind]⟩

theorem saveStats_okOrUb (srt : Sorts) (b : Bench) (cs : List (ObjType × D)) :
    OkOrUb (saveStats srt b cs) := by
  unfold saveStats
  rcases rankLines_okOrUb srt b cs 0 (List.replicate (b.solvers.length + 1) 0) with
    ⟨y, hy⟩ | ⟨w, hw⟩
  · rw [hy, okBind]; exact .inl ⟨_, rfl⟩
  · rw [hw, errBind]; exact .inr ⟨w, rfl⟩

theorem digits_okOrUb (v : D) : OkOrUb (digits v) := by
  unfold digits
  split
  · exact .inr ⟨_, rfl⟩
  · exact .inl ⟨_, rfl⟩

theorem cellWidth_okOrUb (a : Dyn) (i j : Nat) :
    OkOrUb (do
      let v ← a.get i j
      if isValid v then digits v else .ok () : BM Unit) := by
  rcases get_okOrUb a i j with ⟨v, hv⟩ | ⟨w, hw⟩
  · rw [hv, okBind]
    split
    · exact digits_okOrUb v
    · exact .inl ⟨_, rfl⟩
  · rw [hw, errBind]; exact .inr ⟨w, rfl⟩

theorem elemWidth_okOrUb (e : Element) :
    OkOrUb (if e.success && isValid e.solution then digits e.solution else .ok () : BM Unit) := by
  split
  · exact digits_okOrUb _
  · exact .inl ⟨_, rfl⟩

theorem widths_okOrUb (b : Bench) (es : List Element) : OkOrUb (widths b es) := by
  unfold widths
  rcases mapM_okOrUb (List.range b.models.length) (f := fun i =>
    (List.range b.solvers.length).mapM fun j => do
      let v ← b.array.get i j
      if isValid v then digits v else .ok ())
    (fun i _ => mapM_okOrUb _ fun j _ => cellWidth_okOrUb _ _ _) with ⟨y, hy⟩ | ⟨w, hw⟩
  · rw [hy, okBind]
    rcases mapM_okOrUb es (f := fun e =>
      if e.success && isValid e.solution then digits e.solution else .ok ())
      (fun e _ => elemWidth_okOrUb e) with ⟨z, hz⟩ | ⟨w, hw⟩
    · rw [hz, okBind]
      split
      · exact .inr ⟨_, rfl⟩
      · exact .inl ⟨_, rfl⟩
    · rw [hw, errBind]; exact .inr ⟨w, rfl⟩
  · rw [hw, errBind]; exact .inr ⟨w, rfl⟩

theorem widths_ok {t : Table} {b : Bench} (h : Loaded t b) (hw : Wide t) (hne : t.rows ≠ [])
    (hp : ∀ r ∈ t.rows, ∀ v ∈ r.2, Proper v ∧ v ≠ .fin 0) {es : List Element}
    (he : ∀ e ∈ es, Proper e.solution ∧ e.solution ≠ .fin 0) : widths b es = .ok () := by
  have hd : ∀ v, Proper v → v ≠ .fin 0 → (if isValid v then digits v else .ok () : BM Unit) =
      .ok () := by
    intro v h1 h2
    split
    · unfold digits
      rw [if_neg]
      rintro (h | h)
      · exact h2 h
      · exact proper_ne_nan h1 h
    · rfl
  unfold widths
  rw [mapM_okB (g := fun _ => (List.range b.solvers.length).map fun _ => ()) _ (by
    intro i hi
    have hi' := List.mem_range.1 hi
    rw [h.1, List.length_map] at hi'
    refine mapM_okB (g := fun _ => ()) _ ?_
    intro j hj
    have hj' := List.mem_range.1 hj
    have hrl := hw _ (List.getElem_mem hi')
    rw [h.2.1] at hj'
    rw [loaded_get h hw (r := t.rows[i]) (by simp [hi']) (v := t.rows[i].2[j]'(by omega))
      (by simp [hrl, hj']), okBind]
    obtain ⟨k1, k2⟩ := hp _ (List.getElem_mem hi') (t.rows[i].2[j]'(by omega)) (List.getElem_mem _)
    exact hd _ k1 k2), okBind,
    mapM_okB (g := fun _ => ()) es (by
      intro e hm
      obtain ⟨k1, k2⟩ := he e hm
      cases e.success with
      | false => rfl
      | true => rw [Bool.true_and]; exact hd _ k1 k2), okBind]
  have : b.models.isEmpty = false := by rw [h.1]; simpa using hne
  rw [this]
  rfl

theorem widths_zero {t : Table} {b : Bench} (h : Loaded t b) (hw : Wide t)
    {r : Text × List D} (hr : r ∈ t.rows) (hz : .fin 0 ∈ r.2) (es : List Element) :
    ∃ w, widths b es = .error (.fault (.ub w)) := by
  obtain ⟨i, hi⟩ := List.mem_iff_getElem?.1 hr
  obtain ⟨j, hj⟩ := List.mem_iff_getElem?.1 hz
  have hget := loaded_get h hw hi hj
  have hi' := (List.getElem?_eq_some_iff.1 hi).1
  have hj' := (List.getElem?_eq_some_iff.1 hj).1
  rw [hw r hr] at hj'
  obtain ⟨w, hw'⟩ := mapM_ub (List.range b.models.length) (f := fun i =>
    (List.range b.solvers.length).mapM fun j => do
      let v ← b.array.get i j
      if isValid v then digits v else .ok ())
    (fun i _ => mapM_okOrUb _ fun j _ => cellWidth_okOrUb _ _ _)
    ⟨i, by rw [h.1]; simpa using hi', mapM_ub _ (fun j _ => cellWidth_okOrUb _ _ _)
      ⟨j, by rw [h.2.1]; simpa using hj', "static_cast<int>(std::floor(std::log10(...)))", by
        rw [hget, okBind]; rfl⟩⟩
  exact ⟨w, by unfold widths; rw [hw', errBind]⟩

/-! ## The console -/

theorem showLines_okOrUb (b : Bench) (es : List Element) : OkOrUb (showLines b es) := by
  refine mapM_okOrUb _ fun i _ => ?_
  rcases mapM_okOrUb (List.range b.solvers.length) (f := fun j => b.array.get i j)
    (fun j _ => get_okOrUb _ _ _) with ⟨y, hy⟩ | ⟨w, hw⟩
  · rw [hy, okBind]
    split
    · exact .inl ⟨_, rfl⟩
    · exact .inr ⟨_, rfl⟩
  · rw [hw, errBind]; exact .inr ⟨w, rfl⟩

theorem showLines_ok {t : Table} {b : Bench} (h : Loaded t b) (hw : Wide t) {es : List Element}
    (hl : es.length = t.rows.length) :
    showLines b es = .ok ((t.rows.zip es).map fun p => consoleLine p.1.2 p.2) := by
  have hcells : ∀ i (hi : i < t.rows.length), (List.range b.solvers.length).mapM
      (fun j => b.array.get i j) = .ok t.rows[i].2 := by
    intro i hi
    have hrl := hw _ (List.getElem_mem hi)
    rw [mapM_okB (g := fun j => t.rows[i].2.getD j .pinf) _ (by
      intro j hj
      have hj' := List.mem_range.1 hj
      rw [h.2.1] at hj'
      rw [loaded_get h hw (r := t.rows[i]) (by simp [hi]) (v := t.rows[i].2[j]'(by omega))
        (by simp [hrl, hj'])]
      simp [List.getD_eq_getElem?_getD, hrl, hj'])]
    congr 1
    refine List.ext_getElem (by simp [h.2.1, hrl]) ?_
    intro j h1 h2
    simp [List.getD_eq_getElem?_getD, h2]
  unfold showLines
  rw [mapM_okB (g := fun i => consoleLine ((t.rows.map Prod.snd).getD i []) (es.getD i ⟨.minimize, .pinf, false⟩)) _ (by
    intro i hi
    have hi' := List.mem_range.1 hi
    rw [h.1, List.length_map] at hi'
    have he : i < es.length := by omega
    rw [hcells i hi', okBind]
    simp [List.getD_eq_getElem?_getD, hi', he])]
  congr 1
  refine List.ext_getElem (by simp [h.1, hl]) ?_
  intro i h1 h2
  simp at h2
  simp [List.getD_eq_getElem?_getD, h2.1, h2.2]

/-! ## The run -/

theorem runModels_ok : ∀ as : List Attempt, (∀ a ∈ as, a ≠ .unreadable) →
    ∃ es, runModels as = .ok es ∧ es.map Element.solution = as.map valueOf ∧
      es.map Element.type = as.map typeOf ∧
      es.map Element.success = as.map fun a => match a with | .thrown _ => false | _ => true
  | [], _ => ⟨[], rfl, rfl, rfl, rfl⟩
  | a :: as, h => by
    obtain ⟨es, h1, h2, h3, h4⟩ := runModels_ok as fun x hx => h x (by simp [hx])
    cases a with
    | unreadable => exact absurd rfl (h .unreadable (by simp))
    | solved t v => exact ⟨⟨t, v, true⟩ :: es, by rw [runModels, h1, okBind],
        by simp [h2, valueOf], by simp [h3, typeOf], by simp [h4]⟩
    | unsolved t => exact ⟨⟨t, .pinf, true⟩ :: es, by rw [runModels, h1, okBind],
        by simp [h2, valueOf], by simp [h3, typeOf], by simp [h4]⟩
    | thrown t => exact ⟨⟨t, .pinf, false⟩ :: es, by rw [runModels, h1, okBind],
        by simp [h2, valueOf], by simp [h3, typeOf], by simp [h4]⟩

theorem runModels_unreadable : ∀ as : List Attempt, .unreadable ∈ as →
    runModels as = .error (.err .openFile)
  | [], h => by simp at h
  | a :: as, h => by
    cases a with
    | unreadable => rfl
    | solved t v | unsolved t | thrown t =>
      have := runModels_unreadable as (by simpa using h)
      rw [runModels, this, errBind]

/-- The run on a table, when every model can be read. -/
theorem run_table {num : Text → Option D} {txt : D → Text} {t : Table} (ht : t.Ok num txt)
    (srt : Sorts) (attempt : Text → Attempt) (hr : ∀ r ∈ t.rows, attempt r.1 ≠ .unreadable)
    (name : Text) :
    ∃ b es, Loaded t b ∧ es.map Element.solution = newColumn attempt t ∧
      es.map Element.type = t.rows.map (fun r => typeOf (attempt r.1)) ∧
      es.map Element.success =
        (t.rows.map fun r => match attempt r.1 with | .thrown _ => false | _ => true) ∧
      tryBenchmark num txt srt attempt (csv txt t) name =
        (csv txt (t.add name (newColumn attempt t)), do
          let stats ← saveStats srt b (es.map fun e => (e.type, e.solution))
          widths b es
          .ok ⟨allFound es, optimumDistance (newColumn attempt t),
            (List.range t.solvers.length).map fun j =>
              distance (t.rows.map fun r => r.2.getD j .pinf) (newColumn attempt t), stats,
            (t.rows.zip es).map fun p => consoleLine p.1.2 p.2⟩) := by
  obtain ⟨b, hb, hl⟩ := load_csv ht
  obtain ⟨es, h1, h2, h3, h4⟩ := runModels_ok (b.models.map attempt) (by
    rw [hl.1]
    intro a ha
    simp only [List.map_map, List.mem_map, Function.comp_apply] at ha
    obtain ⟨r, hr', rfl⟩ := ha
    exact hr r hr')
  rw [hl.1] at h2 h3 h4
  simp only [List.map_map] at h2 h3 h4
  have h2' : es.map Element.solution = newColumn attempt t := h2
  refine ⟨b, es, hl, h2', h3, h4, ?_⟩
  have hlen : (newColumn attempt t).length = t.rows.length := by simp [newColumn]
  unfold tryBenchmark
  rw [hb]
  simp only [h1]
  unfold finish
  have hel : es.length = t.rows.length := by
    rw [← hlen, ← h2', List.length_map]
  rw [h2', distances_ok hl ht.widths _ hlen, save_ok txt hl ht.widths name _ hlen]
  simp only [showLines_ok hl ht.widths hel, okBind]

end Bx.Benchmark
