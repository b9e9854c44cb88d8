import Mathlib.Algebra.Order.Ring.Rat
import Mathlib.Tactic.Linarith
import Mathlib.Data.List.Nodup
import Mathlib.Tactic.Ring
import Verif.Proofs.Outcome
import Verif.Spec.Utils

/-!
# C52-C55, C60: utilities
-/

namespace Bx.Utils

/-! ## C52 -/

theorem IntType.cast_of_has {t : IntType} {v : Int} (hb : 1 ≤ t.bits) (h : t.Has v) :
    t.cast v = v := by
  have e : (2 : Int) ^ t.bits = 2 * 2 ^ (t.bits - 1) := by
    rw [← pow_succ', Nat.sub_add_cancel hb]
  unfold IntType.Has at h
  unfold IntType.cast
  split at h
  · rename_i hs
    rw [if_pos hs, e, Int.emod_eq_of_lt (by linarith [h.1]) (by linarith [h.2])]
    ring
  · rename_i hs
    rw [if_neg hs, Int.emod_eq_of_lt h.1 h.2]

theorem pow_mono {a b : Nat} (h : a ≤ b) : (2 : Int) ^ a ≤ 2 ^ b := by
  exact_mod_cast Nat.pow_le_pow_right (by norm_num) h

/-- The digits of a type give its greatest value. -/
theorem IntType.max_digits (t : IntType) : t.max = 2 ^ t.digits - 1 := by
  unfold IntType.max IntType.digits; split <;> rfl

theorem IntType.has_iff (t : IntType) (v : Int) :
    t.Has v ↔ (if t.signed then -2 ^ t.digits else 0) ≤ v ∧ v < 2 ^ t.digits := by
  unfold IntType.Has IntType.digits
  split <;> rfl

theorem castable_iff {target source : IntType} {v : Int} (ht : 1 ≤ target.bits)
    (hs : 1 ≤ source.bits) (h : source.Has v) :
    isNumericCastable target source v = true ↔ target.Has v := by
  have hp : ∀ n : Nat, (0 : Int) < 2 ^ n := fun n => by positivity
  have hv := (source.has_iff v).mp h
  rw [target.has_iff v]
  unfold isNumericCastable
  split
  · rename_i he
    rw [he.1, he.2]
    simp only [hv.1, hv.2, and_self]
  · rename_i hne
    split
    · rename_i hd
      have hlt := pow_mono hd.le
      simp only [Bool.or_eq_true, decide_eq_true_eq]
      by_cases hts : target.signed = true
      · simp only [hts, true_or, if_true, true_iff]
        refine ⟨?_, by linarith [hv.2]⟩
        refine le_trans ?_ hv.1
        split
        · linarith
        · linarith [hp target.digits]
      · rw [if_neg hts]
        simp only [hts, Bool.false_eq_true, false_or]
        exact ⟨fun h0 => ⟨h0, by linarith [hv.2]⟩, fun h => h.1⟩
    · rename_i hd
      have hle := pow_mono (not_lt.mp hd)
      have hmax : source.cast target.max = 2 ^ target.digits - 1 := by
        rw [target.max_digits]
        apply IntType.cast_of_has hs
        rw [source.has_iff]
        refine ⟨?_, by linarith⟩
        have := hp target.digits
        split
        · linarith [hp source.digits]
        · linarith
      have hmin : target.min = if target.signed then -2 ^ target.digits else 0 := by
        unfold IntType.min IntType.digits
        split <;> rfl
      rw [hmax]
      by_cases hss : source.signed = true
      · have hcm : source.cast target.min = if target.signed then -2 ^ target.digits else 0 := by
          rw [hmin]
          apply IntType.cast_of_has hs
          rw [source.has_iff, if_pos hss]
          have := hp source.digits
          split
          · have := hp target.digits; constructor <;> linarith
          · constructor <;> linarith
        rw [hcm]
        generalize (if target.signed = true then -(2 : Int) ^ target.digits else 0) = lo
        by_cases hlt : v < lo
        · rw [if_pos ⟨hss, hlt⟩]
          constructor
          · intro h; exact absurd h (by simp)
          · intro h; exact absurd h.1 (not_le.mpr hlt)
        · rw [if_neg fun h => hlt h.2]
          simp only [decide_eq_true_eq]
          exact ⟨fun h => ⟨not_lt.mp hlt, by linarith⟩, fun h => by linarith [h.2]⟩
      · rw [if_neg fun h => hss h.1]
        simp only [decide_eq_true_eq]
        rw [if_neg hss] at hv
        constructor
        · intro h
          refine ⟨?_, by linarith⟩
          split
          · linarith [hp target.digits, hv.1]
          · exact hv.1
        · intro h; linarith [h.2]

/-- C52: for every pair of integer types, `numeric_cast` gives back the value when the
target type has it, and throws otherwise. -/
theorem C52_numeric_cast_exact (target source : IntType) (v : Int) (ht : 1 ≤ target.bits)
    (hs : 1 ≤ source.bits) (h : source.Has v) :
    numericCast target source v =
      if target.Has v then .ok v else .error (.exn "numeric_cast_failure") := by
  unfold numericCast
  by_cases hv : target.Has v
  · rw [(castable_iff ht hs h).mpr hv, if_pos hv, IntType.cast_of_has ht hv]
    rfl
  · have : isNumericCastable target source v = false := by
      cases hc : isNumericCastable target source v with
      | false => rfl
      | true => exact absurd ((castable_iff ht hs h).mp hc) hv
    rw [this, if_neg hv]
    rfl

/-- `std::size_t` to `int`: the largest `int` passes, the next value does not. -/
example : numericCast ⟨32, true⟩ ⟨64, false⟩ (2 ^ 31 - 1) = .ok (2 ^ 31 - 1) ∧
    numericCast ⟨32, true⟩ ⟨64, false⟩ (2 ^ 31) = .error (.exn "numeric_cast_failure") := by
  constructor
  · rw [C52_numeric_cast_exact _ _ _ (by decide) (by decide) (by decide)]; decide
  · rw [C52_numeric_cast_exact _ _ _ (by decide) (by decide) (by decide)]; decide

/-! ## C53 -/

theorem isBlank_iff (c : Char) : isBlank c = true ↔ Blank c := by
  unfold isBlank blanks Blank
  simp only [List.contains_iff_mem, List.mem_cons, List.not_mem_nil, or_false]

theorem leftTrim_dropWhile (s : List Char) : leftTrim s = s.dropWhile isBlank := by
  unfold leftTrim
  induction s with
  | nil => rfl
  | cons c s ih =>
    rw [List.findIdx?_cons, List.dropWhile_cons]
    cases hc : isBlank c with
    | false => rfl
    | true =>
      simp only [Bool.not_true, Bool.false_eq_true, if_false, if_true]
      rw [← ih]
      cases s.findIdx? fun c => !isBlank c <;> rfl

theorem rightTrim_reverse (s : List Char) :
    rightTrim s = (s.reverse.dropWhile isBlank).reverse := by
  rw [← leftTrim_dropWhile]
  unfold rightTrim findLastNot leftTrim
  cases h : s.reverse.findIdx? fun c => !isBlank c with
  | none => rfl
  | some i =>
    simp only [Option.map_some]
    have hi : i < s.length := by
      have := (List.findIdx?_eq_some_iff_getElem.mp h).1
      simpa using this
    rw [List.drop_reverse, List.reverse_reverse]
    congr 1
    omega

theorem dropWhile_spec (s : List Char) :
    ∃ a, s = a ++ s.dropWhile isBlank ∧ (∀ c ∈ a, Blank c) ∧ NoBlankStart (s.dropWhile isBlank) := by
  refine ⟨s.takeWhile isBlank, List.takeWhile_append_dropWhile.symm, ?_, ?_⟩
  · intro c hc
    exact (isBlank_iff c).mp (List.all_eq_true.mp List.all_takeWhile c hc)
  · intro c hc hb
    have := List.head?_dropWhile_not isBlank s
    rw [hc] at this
    simp only at this
    rw [(isBlank_iff c).mpr hb] at this
    exact absurd this (by simp)

/-- C53: `left_trim` removes blanks at the left and leaves none. -/
theorem C53_left_trim (s : List Char) :
    ∃ a, s = a ++ leftTrim s ∧ (∀ c ∈ a, Blank c) ∧ NoBlankStart (leftTrim s) := by
  rw [leftTrim_dropWhile]; exact dropWhile_spec s

/-- C53: `right_trim` removes blanks at the right and leaves none. -/
theorem C53_right_trim (s : List Char) :
    ∃ b, s = rightTrim s ++ b ∧ (∀ c ∈ b, Blank c) ∧ NoBlankEnd (rightTrim s) := by
  rw [rightTrim_reverse]
  obtain ⟨a, h1, h2, h3⟩ := dropWhile_spec s.reverse
  refine ⟨a.reverse, ?_, fun c hc => h2 c (List.mem_reverse.mp hc), ?_⟩
  · have := congrArg List.reverse h1
    rw [List.reverse_reverse, List.reverse_append] at this
    exact this
  · intro c hc
    rw [List.getLast?_reverse] at hc
    exact h3 c hc

/-- C53: `trim` removes blanks at both ends and leaves none. -/
theorem C53_trim (s : List Char) :
    ∃ a b, s = a ++ trim s ++ b ∧ (∀ c ∈ a, Blank c) ∧ (∀ c ∈ b, Blank c) ∧
      NoBlankStart (trim s) ∧ NoBlankEnd (trim s) := by
  obtain ⟨b, h1, h2, h3⟩ := C53_right_trim s
  obtain ⟨a, g1, g2, g3⟩ := C53_left_trim (rightTrim s)
  refine ⟨a, b, ?_, g2, h2, g3, ?_⟩
  · unfold trim
    rw [← g1, ← h1]
  · intro c hc
    unfold trim at hc
    apply h3 c
    rw [g1, List.getLast?_append, hc]
    rfl

/-- C53: `trim s` is the longest part of `s` without a blank at its ends. -/
theorem C53_trim_longest (s u t v : List Char) (hs : s = u ++ t ++ v) (h1 : NoBlankStart t)
    (h2 : NoBlankEnd t) : t.length ≤ (trim s).length := by
  obtain ⟨a, b, he, ha, hb, _, _⟩ := C53_trim s
  by_cases ht : t = []
  · rw [ht]; exact Nat.zero_le _
  have hlen : u.length + t.length + v.length = a.length + (trim s).length + b.length := by
    have := congrArg List.length (hs.symm.trans he)
    simpa only [List.length_append] using this
  have hu : a.length ≤ u.length := by
    by_contra hlt
    have hlt : u.length < a.length := not_le.mp hlt
    obtain ⟨c, l, rfl⟩ := List.exists_cons_of_ne_nil ht
    have e1 : s[u.length]? = some c := by
      rw [hs, List.append_assoc, List.getElem?_append_right (le_refl _)]
      simp
    have e2 : s[u.length]? = a[u.length]? := by
      rw [he, List.append_assoc, List.getElem?_append_left hlt]
    rw [e1] at e2
    exact h1 c rfl (ha c (List.mem_of_getElem? e2.symm))
  have hv : b.length ≤ v.length := by
    by_contra hlt
    have hlt : v.length < b.length := not_le.mp hlt
    obtain ⟨c, hc⟩ : ∃ c, t.getLast? = some c := ⟨t.getLast ht, List.getLast?_eq_some_getLast ht⟩
    have e1 : s.reverse[v.length]? = some c := by
      rw [hs, List.reverse_append, List.getElem?_append_right (by simp)]
      simp only [List.length_reverse, Nat.sub_self, List.reverse_append]
      rw [← List.head?_eq_getElem?, List.head?_append, List.head?_reverse, hc]
      rfl
    have e2 : s.reverse[v.length]? = b.reverse[v.length]? := by
      rw [he, List.reverse_append, List.getElem?_append_left (by simpa using hlt)]
    rw [e1] at e2
    exact h2 c hc (hb c (List.mem_reverse.mp (List.mem_of_getElem? e2.symm)))
  omega

/-- C53: trimming twice changes nothing. -/
theorem C53_trim_idempotent (s : List Char) : trim (trim s) = trim s := by
  obtain ⟨a, b, he, ha, hb, _, _⟩ := C53_trim (trim s)
  have hs := C53_trim s
  obtain ⟨_, _, _, _, _, h1, h2⟩ := hs
  have := C53_trim_longest (trim s) [] (trim s) [] (by simp) h1 h2
  have hl := congrArg List.length he
  simp only [List.length_append] at hl
  have ha0 : a = [] := List.length_eq_zero_iff.mp (by omega)
  have hb0 : b = [] := List.length_eq_zero_iff.mp (by omega)
  rw [ha0, hb0] at he
  simpa using he.symm

example : trim [' ', '\t', 'a', ' ', 'b', '\n', ' '] = ['a', ' ', 'b'] := by decide

example : trim [' ', '\n'] = [] := by decide

/-! ## C54 -/

theorem foldl_addFactor (l : List Rat) : ∀ acc : Rat × Rat,
    l.foldl addFactor acc = (acc.1 + (l.map fun f => min f 0).sum,
      acc.2 + (l.map fun f => max f 0).sum) := by
  induction l with
  | nil => intro acc; simp
  | cons f l ih =>
    intro acc
    rw [List.foldl_cons, ih]
    unfold addFactor
    split
    · rename_i h
      simp only [List.map_cons, List.sum_cons, min_eq_left h.le, max_eq_right h.le]
      ext <;> simp <;> ring
    · rename_i h
      have h := not_lt.mp h
      simp only [List.map_cons, List.sum_cons, min_eq_right h, max_eq_left h]
      ext <;> simp <;> ring

theorem sum_between {α : Type} (l : List α) (f : α → Rat) (p : α → Bool) :
    ((l.map f).map fun f => min f 0).sum ≤ (l.map fun a => if p a then f a else 0).sum ∧
    (l.map fun a => if p a then f a else 0).sum ≤ ((l.map f).map fun f => max f 0).sum := by
  induction l with
  | nil => simp
  | cons a l ih =>
    simp only [List.map_cons, List.sum_cons]
    have h1 : min (f a) 0 ≤ if p a then f a else 0 := by
      split
      · exact min_le_left _ _
      · exact min_le_right _ _
    have h2 : (if p a then f a else 0) ≤ max (f a) 0 := by
      split
      · exact le_max_left _ _
      · exact le_max_right _ _
    constructor
    · exact add_le_add h1 ih.1
    · exact add_le_add h2 ih.2

/-- C54: for every 0-1 assignment, the objective lies between the two bounds. -/
theorem C54_objective_between (o : Objective) (x : Spec.Assign) :
    (minMax o).1 ≤ Spec.objective o x ∧ Spec.objective o x ≤ (minMax o).2 := by
  unfold minMax Spec.objective
  rw [foldl_addFactor, foldl_addFactor]
  have h1 := sum_between o.elems ObjElem.factor fun e => x e.var
  have h2 := sum_between o.qelems QuadElem.factor fun e => x e.a && x e.b
  exact ⟨add_le_add (add_le_add (le_refl _) h1.1) h2.1,
    add_le_add (add_le_add (le_refl _) h1.2) h2.2⟩

theorem sum_filter_eq {l : List ObjElem} (x : Spec.Assign) (g : Rat → Rat)
    (h : ∀ e ∈ l, (if x e.var then e.factor else 0) = g e.factor) :
    (l.map fun e => if x e.var then e.factor else 0).sum = ((l.map ObjElem.factor).map g).sum := by
  induction l with
  | nil => rfl
  | cons e l ih =>
    simp only [List.map_cons, List.sum_cons]
    rw [h e List.mem_cons_self, ih fun e he => h e (List.mem_cons_of_mem _ he)]

/-- C54: the bounds of a linear objective that names each variable once are reached. -/
theorem C54_linear_bounds_reached (o : Objective) (hq : o.qelems = [])
    (hn : (o.elems.map ObjElem.var).Nodup) :
    (∃ x, Spec.objective o x = (minMax o).1) ∧ ∃ x, Spec.objective o x = (minMax o).2 := by
  have uniq : ∀ e ∈ o.elems, ∀ e' ∈ o.elems, e.var = e'.var → e = e' := by
    intro e he e' he' hv
    exact List.inj_on_of_nodup_map hn he he' hv
  have key : ∀ p : Rat → Bool, ∃ x : Spec.Assign, ∀ e ∈ o.elems, x e.var = p e.factor := by
    intro p
    refine ⟨fun v => o.elems.any fun e => decide (e.var = v) && p e.factor, ?_⟩
    intro e he
    cases hp : p e.factor with
    | true =>
      simp only [List.any_eq_true, Bool.and_eq_true, decide_eq_true_eq]
      exact ⟨e, he, rfl, hp⟩
    | false =>
      rw [Bool.eq_false_iff]
      intro ha
      simp only [List.any_eq_true, Bool.and_eq_true, decide_eq_true_eq] at ha
      obtain ⟨e', he', hv, hp'⟩ := ha
      rw [uniq e' he' e he hv, hp] at hp'
      exact absurd hp' (by simp)
  unfold minMax Spec.objective
  rw [foldl_addFactor, foldl_addFactor, hq]
  constructor
  · obtain ⟨x, hx⟩ := key fun f => decide (f < 0)
    refine ⟨x, ?_⟩
    rw [sum_filter_eq x (fun f => min f 0)]
    · simp
    · intro e he
      rw [hx e he]
      by_cases h : e.factor < 0
      · simp [h, min_eq_left h.le]
      · simp [h, min_eq_right (not_lt.mp h)]
  · obtain ⟨x, hx⟩ := key fun f => decide (0 < f)
    refine ⟨x, ?_⟩
    rw [sum_filter_eq x (fun f => max f 0)]
    · simp
    · intro e he
      rw [hx e he]
      by_cases h : 0 < e.factor
      · simp [h, max_eq_left h.le]
      · simp [h, max_eq_right (not_lt.mp h)]

/-- `3 x0 - 2 x1 - x0 x1 + 1` is between -2 and 4. -/
example : minMax ⟨[⟨3, 0⟩, ⟨-2, 1⟩], [⟨-1, 0, 1⟩], 1⟩ = (-2, 4) := by decide +kernel

/-! ## C55 -/

/-- Every node has its full length and the position is in the first node. -/
structure Buffer.Inv (b : Buffer) : Prop where
  length : ∀ n ∈ b.nodes, n.length = nodeLength
  position : b.position ≤ nodeLength
  empty : b.nodes = [] → b.position = 0

/-- The view is in the written part of the buffer. -/
def Buffer.Written (b : Buffer) (v : View) : Prop :=
  v.node < b.nodes.length ∧ (v.node + 1 = b.nodes.length → v.offset + v.size ≤ b.position)

theorem Buffer.Inv.alloc {b : Buffer} (h : b.Inv) : b.alloc.Inv where
  length := by
    intro n hn
    rcases List.mem_cons.mp hn with rfl | hn
    · simp
    · exact h.length n hn
  position := Nat.zero_le _
  empty := fun h => absurd h (by simp [Buffer.alloc])

theorem Buffer.read_alloc {b : Buffer} {v : View} (hv : v.node < b.nodes.length) :
    b.alloc.read v = b.read v := by
  unfold Buffer.read Buffer.alloc
  simp only [List.reverse_cons]
  rw [List.getElem?_append_left (by simpa using hv)]

theorem Buffer.write_spec {b : Buffer} {str : List Char} (h : b.Inv) (hne : b.nodes ≠ [])
    (hs : b.position + str.length ≤ nodeLength) :
    ∃ b' v, b.write str = .ok (b', v) ∧ b'.Inv ∧ b'.read v = some str ∧ b'.Written v ∧
      ∀ w, b.Written w → b'.read w = b.read w ∧ b'.Written w := by
  obtain ⟨n, rest, hn⟩ := List.exists_cons_of_ne_nil hne
  have hl : n.length = nodeLength := h.length n (by rw [hn]; exact List.mem_cons_self)
  refine ⟨⟨(n.take b.position ++ str ++ n.drop (b.position + str.length)) :: rest,
    b.position + str.length⟩, ⟨rest.length, b.position, str.length⟩, ?_, ?_, ?_, ?_, ?_⟩
  · unfold Buffer.write
    rw [hn]
    simp only
    rw [if_neg (by omega)]
  · refine ⟨?_, hs, fun h => absurd h (by simp)⟩
    intro m hm
    rcases List.mem_cons.mp hm with rfl | hm
    · simp only [List.length_append, List.length_take, List.length_drop]
      omega
    · exact h.length m (by rw [hn]; exact List.mem_cons_of_mem _ hm)
  · unfold Buffer.read
    simp only [List.reverse_cons]
    rw [List.getElem?_append_right (by simp)]
    simp only [List.length_reverse, Nat.sub_self, List.getElem?_cons_zero, Option.map_some,
      Option.some.injEq]
    have h1 : (n.take b.position).length = b.position := by
      rw [List.length_take]; omega
    rw [List.append_assoc, List.drop_append, h1, Nat.sub_self, List.drop_zero,
      List.drop_of_length_le (by omega), List.nil_append, List.take_append]
    simp
  · exact ⟨by simp, fun _ => le_refl _⟩
  · intro w hw
    have hlen : b.nodes.length = rest.length + 1 := by rw [hn]; rfl
    refine ⟨?_, ⟨?_, ?_⟩⟩
    · unfold Buffer.read
      rw [hn]
      simp only [List.reverse_cons]
      by_cases hlast : w.node = rest.length
      · have hw2 := hw.2 (by omega)
        rw [List.getElem?_append_right (by simp [hlast]), List.getElem?_append_right
          (by simp [hlast])]
        simp only [List.length_reverse, hlast, Nat.sub_self, List.getElem?_cons_zero,
          Option.map_some, Option.some.injEq]
        have h1 : (n.take b.position).length = b.position := by
          rw [List.length_take]; omega
        rw [List.append_assoc, List.drop_append_of_le_length (by omega),
          List.take_append_of_le_length (by rw [List.length_drop]; omega), List.drop_take,
          List.take_take]
        congr 1
        omega
      · have := hw.1
        rw [List.getElem?_append_left (by simp; omega), List.getElem?_append_left
          (by simp; omega)]
    · have := hw.1
      simpa [hlen] using this
    · intro he
      simp only [List.length_cons] at he
      have := hw.2 (by omega)
      simp only
      omega

theorem Buffer.append_spec {b : Buffer} {str : List Char} (h : b.Inv)
    (hs : str.length ≤ nodeLength) :
    ∃ b' v, b.append str = .ok (b', v) ∧ b'.Inv ∧ b'.read v = some str ∧ b'.Written v ∧
      ∀ w, b.Written w → b'.read w = b.read w ∧ b'.Written w := by
  unfold Buffer.append
  split
  · rename_i hc
    obtain ⟨b', v, h1, h2, h3, h4, h5⟩ := Buffer.write_spec (str := str) h.alloc
      (by simp [Buffer.alloc]) (by simpa [Buffer.alloc] using hs)
    refine ⟨b', v, h1, h2, h3, h4, fun w hw => ?_⟩
    have hw' : b.alloc.Written w := by
      refine ⟨Nat.lt_succ_of_lt hw.1, fun he => ?_⟩
      have := hw.1
      simp only [Buffer.alloc, List.length_cons] at he
      omega
    have := h5 w hw'
    rw [Buffer.read_alloc hw.1] at this
    exact this
  · rename_i hc
    rw [not_or] at hc
    exact Buffer.write_spec h hc.1 (by omega)

theorem Buffer.appendAll_spec (strs : List (List Char)) : ∀ (b : Buffer), b.Inv →
    (∀ s ∈ strs, s.length ≤ nodeLength) →
    ∃ b' vs, b.appendAll strs = .ok (b', vs) ∧ vs.map b'.read = strs.map some ∧
      ∀ w, b.Written w → b'.read w = b.read w := by
  induction strs with
  | nil => intro b _ _; exact ⟨b, [], rfl, rfl, fun _ _ => rfl⟩
  | cons s strs ih =>
    intro b hb hs
    obtain ⟨b1, v, h1, h2, h3, h4, h5⟩ := Buffer.append_spec hb (hs s List.mem_cons_self)
    obtain ⟨b2, vs, g1, g2, g3⟩ := ih b1 h2 fun t ht => hs t (List.mem_cons_of_mem _ ht)
    refine ⟨b2, v :: vs, ?_, ?_, fun w hw => ?_⟩
    · unfold Buffer.appendAll
      rw [h1, ok_bind]
      simp only
      rw [g1, ok_bind]
    · rw [List.map_cons, g2, g3 v h4, h3]
      rfl
    · rw [g3 w (h5 w hw).2, (h5 w hw).1]

/-- C55 (partial): after any sequence of appends of strings of at most 1048576
characters, every returned view still denotes the string it was returned for.
Missing: longer strings, which are written past the end of a node
(`C55_long_string_overflows`). -/
theorem C55_views_stay_valid_partial (strs : List (List Char))
    (h : ∀ s ∈ strs, s.length ≤ nodeLength) :
    ∃ b vs, Buffer.appendAll {} strs = .ok (b, vs) ∧ vs.map b.read = strs.map some := by
  obtain ⟨b, vs, h1, h2, _⟩ := Buffer.appendAll_spec strs {} ⟨by simp, Nat.zero_le _, fun _ => rfl⟩ h
  exact ⟨b, vs, h1, h2⟩

/-- Refutation: whatever was appended before, a longer string is undefined behaviour. -/
theorem C55_long_string_overflows (b : Buffer) (str : List Char) (h : nodeLength < str.length) :
    b.append str = .error (.ub "copy past the end of a node") := by
  unfold Buffer.append
  rw [if_pos (Or.inr (by omega))]
  unfold Buffer.write Buffer.alloc
  simp only [List.length_replicate]
  rw [if_pos (by omega)]

example : ∃ b vs, Buffer.appendAll {} [['x', '1'], ['c', 'o', 's', 't'], []] = .ok (b, vs) ∧
    vs.map b.read = [some ['x', '1'], some ['c', 'o', 's', 't'], some []] :=
  C55_views_stay_valid_partial _ (by decide)

/-! ## C60 -/

/-- C60 (partial): when there are at least as many columns as rows, the copy of an array
has the same cells.  Missing: arrays with more rows than columns, for which the claim is
false (`C60_copy_overflows`). -/
theorem C60_copy_partial {α : Type} (d : α) (o : Array2 α) (h : o.WellFormed)
    (hr : o.rows ≤ o.columns) :
    ∃ a, o.copyAssign d = .ok a ∧ a.rows = o.rows ∧ a.columns = o.columns ∧
      ∀ row col, a.get row col = o.get row col := by
  have hle : o.columns * o.rows ≤ o.columns * o.columns := Nat.mul_le_mul_left _ hr
  refine ⟨_, if_neg (not_lt.mpr hle), rfl, rfl, ?_⟩
  intro row col
  unfold Array2.get
  simp only
  split
  · rename_i hc
    have hi : row * o.columns + col < o.columns * o.rows := by
      calc row * o.columns + col < row * o.columns + o.columns := by omega
        _ = (row + 1) * o.columns := by ring
        _ ≤ o.rows * o.columns := Nat.mul_le_mul_right _ hc.2
        _ = o.columns * o.rows := Nat.mul_comm _ _
    have hl : (o.buffer.take (o.columns * o.rows)).length = o.columns * o.rows := by
      rw [List.length_take, h, Nat.mul_comm o.rows]
      omega
    rw [List.getElem?_append_left (by omega), List.getElem?_take_of_lt hi]
  · rfl

/-- Refutation: the copy of any array with more rows than columns, and at least one
column, writes past the end of its buffer. -/
theorem C60_copy_overflows {α : Type} (d : α) (o : Array2 α) (h : o.columns < o.rows)
    (hc : 0 < o.columns) :
    o.copyAssign d = .error (.ub "copy past the end of the buffer") :=
  if_pos (Nat.mul_lt_mul_of_pos_left h hc)

/-- C60: every cell of a new array can be read and has the default value. -/
theorem C60_new_array {α : Type} (rows columns : Nat) (d : α) :
    (Array2.make rows columns d).WellFormed ∧
    ∀ row col, row < rows → col < columns → (Array2.make rows columns d).get row col = .ok d := by
  refine ⟨by simp [Array2.WellFormed, Array2.make, Nat.mul_comm], fun row col hr hc => ?_⟩
  have hi : row * columns + col < columns * rows := by
    calc row * columns + col < row * columns + columns := by omega
      _ = (row + 1) * columns := by ring
      _ ≤ rows * columns := Nat.mul_le_mul_right _ hr
      _ = columns * rows := Nat.mul_comm _ _
  unfold Array2.get Array2.make
  simp only
  rw [if_pos ⟨hc, hr⟩, List.getElem?_replicate_of_lt hi]

/-- C60: in an array made by its constructor, the cells are in bounds, reading a cell
gives the last value written to it, and writing a cell changes no other cell. -/
theorem C60_cells {α : Type} (a : Array2 α) (h : a.WellFormed) (row col : Nat) (x : α)
    (hr : row < a.rows) (hc : col < a.columns) :
    ∃ a', a.set row col x = .ok a' ∧ a'.WellFormed ∧ a'.get row col = .ok x ∧
      ∀ r c, r < a.rows → c < a.columns → (r, c) ≠ (row, col) → a'.get r c = a.get r c := by
  have idx : ∀ r c, r < a.rows → c < a.columns → r * a.columns + c < a.buffer.length := by
    intro r c h1 h2
    rw [h]
    calc r * a.columns + c < r * a.columns + a.columns := by omega
      _ = (r + 1) * a.columns := by ring
      _ ≤ a.rows * a.columns := Nat.mul_le_mul_right _ h1
  refine ⟨{ a with buffer := a.buffer.set (row * a.columns + col) x }, ?_, ?_, ?_, ?_⟩
  · unfold Array2.set
    rw [if_pos ⟨hc, hr⟩, if_pos (idx _ _ hr hc)]
  · unfold Array2.WellFormed at h ⊢
    simpa using h
  · unfold Array2.get
    simp only
    rw [if_pos ⟨hc, hr⟩, List.getElem?_set_self (idx _ _ hr hc)]
  · intro r c h1 h2 hne
    unfold Array2.get
    simp only
    rw [if_pos ⟨h2, h1⟩, if_pos ⟨h2, h1⟩, List.getElem?_set_ne]
    intro he
    apply hne
    have e1 : (row * a.columns + col) / a.columns = row := by
      rw [Nat.mul_comm, Nat.mul_add_div (by omega), Nat.div_eq_of_lt hc, Nat.add_zero]
    have e2 : (r * a.columns + c) / a.columns = r := by
      rw [Nat.mul_comm, Nat.mul_add_div (by omega), Nat.div_eq_of_lt h2, Nat.add_zero]
    rw [he] at e1
    have hrr : r = row := e2.symm.trans e1
    subst hrr
    have : c = col := by omega
    rw [this]

example : (Array2.make 2 3 (0 : Int)).WellFormed := by unfold Array2.WellFormed; decide

example : (Array2.make 3 2 (0 : Int)).copyAssign 0 = .error (.ub "copy past the end of the buffer") :=
  C60_copy_overflows _ _ (by decide) (by decide)

end Bx.Utils
