import Verif.Spec.Help
import Verif.Props.CommandLine

/-!
# C126: what the help message lists is accepted
-/

namespace Bx.CommandLine

open Params

private theorem not_refused {c : Conv} (hc : c.Ok) {p : SolverParams} {name value : String}
    (h2 : name.toList.length ≠ 2) (hn : c.dbl value ≠ some .nan)
    (h : ∃ f ∈ documented, f.name = name ∧ ∃ x, f.value c value = some x ∧ f.range x ∧
      x ≠ .real (.fin (-1))) :
    ∃ p', assignParameter c p name value = (p', .success) ∧ Stored c p name value p' := by
  obtain ⟨f, hf, hfn, x, hx, hr, hm⟩ := h
  by_cases hs : (assignParameter c p name value).2 = .success
  · have e : assignParameter c p name value =
        ((assignParameter c p name value).1, .success) := by rw [← hs]
    exact ⟨_, e, C61_accepted_partial c p _ name value h2 hn e⟩
  · obtain ⟨_, h | h⟩ := C61_refused c hc p _ name value _ h2 hs rfl
    · exact absurd hfn (h.2 f hf)
    · exact absurd (h.2 f hf hfn x hx hr) hm

private theorem unit_ok {c : Conv} (hc : c.Ok) {p : SolverParams} {name value : String}
    {r : SolverParams → Val} {q : Rat} (i : Nat)
    (hf : documented[i]? = some ⟨name, realText, unitRange, r⟩)
    (h2 : name.toList.length ≠ 2) (hn : c.dbl value ≠ some .nan)
    (hq : c.dbl value = some (.fin q)) (h0 : 0 ≤ q) (h1 : q ≤ 1) :
    ∃ p', assignParameter c p name value = (p', .success) ∧ Stored c p name value p' := by
  refine not_refused hc h2 hn ⟨_, List.mem_of_getElem? hf, rfl, .real (.fin q), ?_, ⟨q, rfl, h0, h1⟩, ?_⟩
  · simp [realText, hq]
  · simp only [ne_eq, Val.real.injEq, D.fin.injEq]
    intro h
    rw [h] at h0
    exact absurd h0 (by decide)

private theorem positive_ok {c : Conv} (hc : c.Ok) {p : SolverParams} {name value : String}
    {R : Val → Prop} {r : SolverParams → Val} {q : Rat} (i : Nat)
    (hf : documented[i]? = some ⟨name, realText, R, r⟩)
    (hR : ∀ v, positiveRange v → R v)
    (h2 : name.toList.length ≠ 2) (hn : c.dbl value ≠ some .nan)
    (hq : c.dbl value = some (.fin q)) (h0 : 0 ≤ q) (h1 : c.dbl value ≠ some (.fin 0)) :
    ∃ p', assignParameter c p name value = (p', .success) ∧ Stored c p name value p' := by
  have hq0 : q ≠ 0 := fun h => h1 (by rw [hq, h])
  have hpos : 0 < q := lt_of_le_of_ne h0 (Ne.symm hq0)
  refine not_refused hc h2 hn ⟨_, List.mem_of_getElem? hf, rfl, .real (.fin q), ?_,
    hR _ (Or.inr ⟨q, rfl, hpos⟩), ?_⟩
  · simp [realText, hq]
  · simp only [ne_eq, Val.real.injEq, D.fin.injEq]
    intro h
    rw [h] at h0
    exact absurd h0 (by decide)

private theorem int_ok {c : Conv} (hc : c.Ok) {p : SolverParams} {name value : String}
    {r : SolverParams → Val} {n lo : Int} (i : Nat)
    (hf : documented[i]? = some ⟨name, intText, atLeast lo, r⟩)
    (h2 : name.toList.length ≠ 2) (hn : c.dbl value ≠ some .nan)
    (hq : c.int value = some n) (h0 : lo ≤ n) :
    ∃ p', assignParameter c p name value = (p', .success) ∧ Stored c p name value p' :=
  not_refused hc h2 hn ⟨_, List.mem_of_getElem? hf, rfl, .int n, by simp [intText, hq], h0, by simp⟩

private theorem word_ok {c : Conv} (hc : c.Ok) {p : SolverParams} {name value : String}
    {l : List (String × Int)} {r : SolverParams → Val} (i : Nat)
    (hf : documented[i]? = some ⟨name, wordText l, choice l, r⟩)
    (h2 : name.toList.length ≠ 2) (hn : c.dbl value ≠ some .nan)
    {ws : List String} (hws : ∀ w ∈ ws, ((l.lookup w).any fun n => n ∈ l.map Prod.snd) = true)
    (ha : value ∈ ws) :
    ∃ p', assignParameter c p name value = (p', .success) ∧ Stored c p name value p' := by
  have hw := hws value ha
  cases hl : l.lookup value with
  | none => rw [hl] at hw; exact absurd hw (by simp)
  | some n =>
    rw [hl] at hw
    have hw' : n ∈ l.map Prod.snd := of_decide_eq_true hw
    exact not_refused hc h2 hn ⟨_, List.mem_of_getElem? hf, rfl, .int n, by simp [wordText, hl],
      hw', by simp⟩

private theorem time_limit {c : Conv} {p : SolverParams} {value : String} {q : Rat}
    (h : c.dbl value = some (.fin q)) :
    ∃ p', assignParameter c p "time-limit" value = (p', .success) := by
  simp [assignParameter, isEqual, isEqualShort, h, store]

/-- C126 (partial): a value that the help message lists for a parameter is accepted,
after any options and in any of the ways to write it; the parameter holds it and nothing
else changes.  Missing: the values of `Unlike`, for which the claim is false
(`C126_listed_but_refused`). -/
theorem C126_listed_values_are_accepted_partial (c : Conv) (hc : c.Ok) (items : List Item)
    (m : Main) (hv : ∀ i ∈ items, i.Valid) (hm : AllAsk c {} items m)
    (name value : String) (d : Doc) (sep : Char) (form : Form)
    (hd : (name, d) ∈ helpLines) (ha : d.Allows c value) (hn : c.dbl value ≠ some .nan)
    (he : value ≠ "") (hsep : sep = ':' ∨ sep = '=') (hu : ¬ Unlike c name value) :
    ∃ k p', parse c ((items ++ [Item.param name value sep form]).flatMap Item.args) =
        { m with parameters := p', parseArg := k } ∧
      Stored c m.parameters name value p' := by
  have key : ∃ p', assignParameter c m.parameters name value = (p', .success) ∧
      Stored c m.parameters name value p' := by
    simp only [helpLines, List.mem_cons, Prod.mk.injEq, List.not_mem_nil, or_false] at hd
    rcases hd with ⟨rfl, rfl⟩ | ⟨rfl, rfl⟩ | ⟨rfl, rfl⟩ | ⟨rfl, rfl⟩ | ⟨rfl, rfl⟩ | ⟨rfl, rfl⟩ |
      ⟨rfl, rfl⟩ | ⟨rfl, rfl⟩ | ⟨rfl, rfl⟩ | ⟨rfl, rfl⟩ | ⟨rfl, rfl⟩ | ⟨rfl, rfl⟩ | ⟨rfl, rfl⟩ |
      ⟨rfl, rfl⟩ | ⟨rfl, rfl⟩ | ⟨rfl, rfl⟩ | ⟨rfl, rfl⟩ | ⟨rfl, rfl⟩ | ⟨rfl, rfl⟩ | ⟨rfl, rfl⟩ |
      ⟨rfl, rfl⟩ | ⟨rfl, rfl⟩ | ⟨rfl, rfl⟩ | ⟨rfl, rfl⟩ | ⟨rfl, rfl⟩ | ⟨rfl, rfl⟩ | ⟨rfl, rfl⟩ |
      ⟨rfl, rfl⟩ | ⟨rfl, rfl⟩
    · obtain ⟨n, hr, _, _⟩ := ha
      have hl : -1 ≤ n := by
        by_contra h
        exact hu (Or.inl ⟨rfl, n, hr.2.1, by omega⟩)
      exact not_refused hc (by decide) hn ⟨_, List.mem_cons_self, rfl, .int n,
        by simp [hr.2.1], hl, by simp⟩
    · obtain ⟨q, hq, _, _⟩ := ha
      obtain ⟨p', e⟩ := time_limit (p := m.parameters) hq
      exact ⟨p', e, C61_accepted_partial c _ _ _ _ (by decide) hn e⟩
    · exact word_ok hc 2 rfl (by decide) hn (by decide) ha
    · exact word_ok hc 3 rfl (by decide) hn (by decide) ha
    · exact word_ok hc 4 rfl (by decide) hn (by decide) ha
    · obtain ⟨n, hr, h0, h2⟩ := ha
      have h0 : 0 ≤ n := h0 0 rfl
      have h2 : n ≤ 2 := h2 2 rfl
      refine not_refused hc (by decide) hn ⟨_, List.mem_of_getElem? (i := 5) rfl, rfl, .int n,
        by simp [intText, hr.1], ?_, by simp⟩
      simp only [List.mem_cons, Val.int.injEq, List.not_mem_nil, or_false]
      omega
    · exact word_ok hc 6 rfl (by decide) hn (by decide) ha
    · exact word_ok hc 7 rfl (by decide) hn (by decide) ha
    · obtain ⟨q, hq, h0, h1⟩ := ha
      exact unit_ok hc 8 rfl (by decide) hn hq h0 (h1 1 rfl)
    · obtain ⟨q, hq, h0, _⟩ := ha
      exact positive_ok hc 9 rfl (fun _ h => Or.inr h) (by decide) hn hq h0
        fun h => hu (Or.inr (Or.inl ⟨by decide, h⟩))
    · obtain ⟨q, hq, h0, h1⟩ := ha
      exact unit_ok hc 10 rfl (by decide) hn hq h0 h1.le
    · obtain ⟨q, hq, h0, h1⟩ := ha
      exact unit_ok hc 11 rfl (by decide) hn hq h0 h1.le
    · obtain ⟨q, hq, h0, h1⟩ := ha
      exact unit_ok hc 12 rfl (by decide) hn hq h0 h1.le
    · obtain ⟨n, hr, h0, h2⟩ := ha
      have h0 : (0 : Rat) ≤ n := by exact_mod_cast h0 0 rfl
      have h2 : (n : Rat) ≤ 2 := by exact_mod_cast h2 2 rfl
      refine not_refused hc (by decide) hn ⟨_, List.mem_of_getElem? (i := 13) rfl, rfl,
        .real (.fin n), by simp [realText, hr.2.2], ⟨_, rfl, n, rfl, h0, h2⟩, ?_⟩
      simp only [ne_eq, Val.real.injEq, D.fin.injEq]
      intro h
      rw [h] at h0
      exact absurd h0 (by decide)
    · obtain ⟨n, hr, h0, _⟩ := ha
      have h0 : (0 : Rat) ≤ n := by exact_mod_cast h0 0 rfl
      refine not_refused hc (by decide) hn ⟨_, List.mem_of_getElem? (i := 14) rfl, rfl,
        .real (.fin n), by simp [realText, hr.2.2], ⟨n, rfl, h0⟩, ?_⟩
      simp only [ne_eq, Val.real.injEq, D.fin.injEq]
      intro h
      rw [h] at h0
      exact absurd h0 (by decide)
    · exact word_ok hc 15 rfl (by decide) hn (by decide) ha
    · obtain ⟨n, hr, h0, _⟩ := ha
      exact int_ok hc 16 rfl (by decide) hn hr.1 (h0 0 rfl)
    · obtain ⟨q, hq, h0, _⟩ := ha
      exact positive_ok hc 17 rfl (fun _ h => h) (by decide) hn hq h0
        fun h => hu (Or.inr (Or.inl ⟨by decide, h⟩))
    · obtain ⟨n, hr, h0, _⟩ := ha
      exact int_ok hc 18 rfl (by decide) hn hr.1 (h0 0 rfl)
    · obtain ⟨q, hq, h0, _⟩ := ha
      exact positive_ok hc 19 rfl (fun _ h => h) (by decide) hn hq h0
        fun h => hu (Or.inr (Or.inl ⟨by decide, h⟩))
    · have hne : value ≠ "cycle" := fun h => hu (Or.inr (Or.inr ⟨rfl, h⟩))
      have ha' : value ∈ ["bastert", "pessimistic-solve", "optimistic-solve"] := by
        simpa [Doc.Allows, hne] using ha
      exact word_ok hc 20 rfl (by decide) hn (by decide) ha'
    · obtain ⟨n, hr, h0, _⟩ := ha
      exact int_ok hc 22 rfl (by decide) hn hr.1 (h0 5 rfl)
    · obtain ⟨q, hq, h0, h1⟩ := ha
      exact unit_ok hc 23 rfl (by decide) hn hq h0 (h1 1 rfl)
    · obtain ⟨q, hq, h0, h1⟩ := ha
      exact unit_ok hc 24 rfl (by decide) hn hq h0 (h1 1 rfl)
    · obtain ⟨q, hq, h0, h1⟩ := ha
      exact unit_ok hc 25 rfl (by decide) hn hq h0 (h1 1 rfl)
    · obtain ⟨q, hq, h0, h1⟩ := ha
      exact unit_ok hc 26 rfl (by decide) hn hq h0 (h1 1 rfl)
    · obtain ⟨q, hq, h0, h1⟩ := ha
      exact unit_ok hc 27 rfl (by decide) hn hq h0 (h1 1 rfl)
    · obtain ⟨q, hq, h0, h1⟩ := ha
      exact unit_ok hc 28 rfl (by decide) hn hq h0 (h1 1 rfl)
    · obtain ⟨q, hq, h0, h1⟩ := ha
      exact unit_ok hc 29 rfl (by decide) hn hq h0 (h1 1 rfl)
  obtain ⟨p', e, hs⟩ := key
  have hv' : ∀ i ∈ items ++ [Item.param name value sep form], i.Valid := by
    intro i hi
    rcases List.mem_append.mp hi with h | h
    · exact hv i h
    · rw [List.mem_singleton.mp h]
      have hnames : ∀ x ∈ helpLines, x.1 ≠ "" ∧ ':' ∉ x.1.toList ∧ '=' ∉ x.1.toList := by decide
      obtain ⟨h1, h2, h3⟩ := hnames _ hd
      exact ⟨h1, he, hsep, h2, h3⟩
  have hm' : AllAsk c {} (items ++ [Item.param name value sep form]) { m with parameters := p' } := by
    clear * - hm e
    generalize ({} : Main) = m0 at hm
    induction hm with
    | nil m => exact .cons ⟨p', rfl, e⟩ (.nil _)
    | cons hi _ ih => exact .cons hi (ih e)
  obtain ⟨k, hk⟩ := C65_options_take_effect_partial c _ _ hv' hm'
  exact ⟨k, p', hk, hs⟩

/-- Refutation: the values of `Unlike` are refused, and nothing changes. -/
theorem C126_listed_but_refused (c : Conv) (p : SolverParams) (name value : String)
    (h : Unlike c name value) :
    (assignParameter c p name value).1 = p ∧ (assignParameter c p name value).2 ≠ .success := by
  rcases h with ⟨rfl, n, hn, hlt⟩ | ⟨hn, h0⟩ | ⟨rfl, rfl⟩
  · have e : ¬ (-1 ≤ n ∧ n ≤ longMax) := by omega
    simp [assignParameter, isEqualShort, assignI, hn, e, store]
  · have e : assign0oo c value = none := by
      simp only [assign0oo, h0]
      exact if_neg (by decide)
    simp only [List.mem_cons, List.not_mem_nil, or_false] at hn
    rcases hn with rfl | rfl | rfl <;>
      simp [assignParameter, isEqual, isEqualShort, e, store]
  · simp [assignParameter, isEqual, isEqualShort, named, store]

/-- These values are listed: `init-policy:cycle`, and, when the conversions read them as
0 and -2, `delta:0`, `pushing-objective-amplifier:0`, `pushing-k-factor:0` and
`limit:-2`. -/
theorem C126_refused_values_are_listed (c : Conv) (h0 : c.dbl "0" = some (.fin 0))
    (h2 : ReadsInt c "-2" (-2)) :
    ∀ x ∈ [("init-policy", "cycle"), ("delta", "0"), ("pushing-objective-amplifier", "0"),
        ("pushing-k-factor", "0"), ("limit", "-2")],
      Unlike c x.1 x.2 ∧ ∃ d, (x.1, d) ∈ helpLines ∧ d.Allows c x.2 := by
  have zero : (Doc.real 0 none).Allows c "0" := ⟨0, h0, le_refl _, by simp⟩
  intro x hx
  simp only [List.mem_cons, List.not_mem_nil, or_false] at hx
  rcases hx with rfl | rfl | rfl | rfl | rfl
  · exact ⟨Or.inr (Or.inr ⟨rfl, rfl⟩), _, List.mem_of_getElem? (i := 20) rfl, by simp [Doc.Allows]⟩
  · exact ⟨Or.inr (Or.inl ⟨by decide, h0⟩), _, List.mem_of_getElem? (i := 9) rfl, zero⟩
  · exact ⟨Or.inr (Or.inl ⟨by decide, h0⟩), _, List.mem_of_getElem? (i := 17) rfl, zero⟩
  · exact ⟨Or.inr (Or.inl ⟨by decide, h0⟩), _, List.mem_of_getElem? (i := 19) rfl, zero⟩
  · exact ⟨Or.inl ⟨rfl, -2, h2.2.1, by decide⟩, _, List.mem_of_getElem? (i := 0) rfl, -2, h2,
      by simp, by simp⟩

/-! ### Examples -/

example : ∃ k p', parse sample ["--optimize", "--param", "theta:0.25"] =
      { optimize := true, parameters := p', parseArg := k } ∧
    Stored sample {} "theta" "0.25" p' := by
  have h := C126_listed_values_are_accepted_partial sample sample_ok [.optimize false]
    { optimize := true } (by intro i hi; rw [List.mem_singleton.mp hi]; trivial)
    (.cons rfl (.nil _)) "theta" "0.25" (.real 0 (some 1)) ':' .next
    (List.mem_of_getElem? (i := 8) rfl) ⟨1 / 4, by decide +kernel, by decide +kernel, by
      intro h hh
      rw [← Option.some.inj hh]
      decide +kernel⟩ (by decide +kernel) (by decide) (Or.inl rfl)
    (by rintro (⟨h, _⟩ | ⟨h, _⟩ | ⟨h, _⟩) <;> revert h <;> decide)
  exact h

example : Unlike sample "init-policy" "cycle" := Or.inr (Or.inr ⟨rfl, rfl⟩)

end Bx.CommandLine
