import Verif.Proofs.CommandLine

/-!
# The options of the command line: lemmas
-/

namespace Bx.CommandLine

open Params

theorem written_prefix {long short v : String} {f : Form} {arg : String} {tail : List String}
    (hw : written long short v f = arg :: tail) :
    (∃ s, arg = long ++ s) ∨ ∃ s, arg = short ++ s := by
  cases f with
  | equal => exact Or.inl ⟨"=" ++ v, by rw [← (List.cons.inj hw).1, String.append_assoc]⟩
  | colon => exact Or.inl ⟨":" ++ v, by rw [← (List.cons.inj hw).1, String.append_assoc]⟩
  | short => exact Or.inr ⟨v, (List.cons.inj hw).1.symm⟩
  | next => exact Or.inl ⟨"", by rw [← (List.cons.inj hw).1]; simp⟩
  | shortNext => exact Or.inr ⟨"", by rw [← (List.cons.inj hw).1]; simp⟩

theorem findIdx?_sep (n : List Char) (sep : Char) (v : List Char) (hs : sep = ':' ∨ sep = '=')
    (h1 : ':' ∉ n) (h2 : '=' ∉ n) :
    (n ++ sep :: v).findIdx? (fun c => c = ':' || c = '=') = some n.length := by
  induction n with
  | nil =>
    rw [List.nil_append, List.findIdx?_cons, if_pos (by rcases hs with rfl | rfl <;> rfl)]
    rfl
  | cons x n ih =>
    simp only [List.mem_cons, not_or] at h1 h2
    rw [List.cons_append, List.findIdx?_cons, ih h1.2 h2.2, if_neg]
    · rfl
    · simp [Ne.symm h1.1, Ne.symm h2.1]

theorem splitArgument_param {n v : String} {sep : Char} (hv : v ≠ "") (hs : sep = ':' ∨ sep = '=')
    (h1 : ':' ∉ n.toList) (h2 : '=' ∉ n.toList) :
    splitArgument (n ++ String.singleton sep ++ v) = (n, v) := by
  have hl : (n ++ String.singleton sep ++ v).toList = n.toList ++ sep :: v.toList := by simp
  unfold splitArgument
  rw [hl, findIdx?_sep _ _ _ hs h1 h2]
  have hv' : v.toList ≠ [] := fun h => hv (String.ext (by simpa using h))
  have := List.length_pos_iff.mpr hv'
  simp only [List.length_append, List.length_cons]
  rw [if_neg (by omega)]
  simp only [List.take_left, String.ofList_toList]
  have hd : List.drop (n.toList.length + 1) (n.toList ++ sep :: v.toList) = v.toList := by
    rw [List.drop_append]
    simp
  rw [hd, String.ofList_toList]

theorem isOpt_file {long short arg : String} (h : arg.toList.head? ≠ some '-')
    (h1 : long.toList.head? = some '-') (h2 : short.toList.head? = some '-') :
    isOpt long short arg = false := by
  have key : ∀ p : String, p.toList.head? = some '-' → p.toList.isPrefixOf arg.toList = false := by
    intro p hp
    cases hb : p.toList.isPrefixOf arg.toList with
    | false => rfl
    | true =>
      exfalso
      obtain ⟨t, ht⟩ := List.isPrefixOf_iff_prefix.mp hb
      cases hl : p.toList with
      | nil => rw [hl] at hp; simp at hp
      | cons x l =>
        rw [hl] at hp ht
        rw [← ht] at h
        simp only [List.head?_cons] at hp
        exact h (by simpa using hp)
  unfold isOpt
  rw [key _ h1, key _ h2]
  rfl

/-- The arguments of the options that the program looks for before another one. -/
theorem step_flags {c : Conv} {m : Main} {k : Nat} {arg : String} {rest : List String}
    (h : arg ∉ ["--help", "-h", "--quiet", "-q", "--optimize", "-O"])
    (hb : getParam arg rest "--bench" "-b" = none)
    (hp : arg ∉ ["--disable-preprocessing", "-np"])
    (ha : getParam arg rest "--auto" "-a" = none) :
    step c m k arg rest = verboseOption c { m with parseArg := k } arg rest := by
  simp only [List.mem_cons, List.not_mem_nil, or_false, not_or] at h hp
  unfold step
  simp [h, hp, hb, ha]

theorem step_last {c : Conv} {m : Main} {k : Nat} {arg : String} {rest : List String}
    (h : arg ∉ ["--help", "-h", "--quiet", "-q", "--optimize", "-O"])
    (hb : getParam arg rest "--bench" "-b" = none)
    (hp : arg ∉ ["--disable-preprocessing", "-np"])
    (ha : getParam arg rest "--auto" "-a" = none)
    (hv : getParam arg rest "--verbose" "-v" = none)
    (hc : getParam arg rest "--check" "-C" = none) :
    step c m k arg rest = lastOptions c { m with parseArg := k } arg rest := by
  rw [step_flags h hb hp ha]
  unfold verboseOption
  rw [hv]

theorem ne_of_prefix {p s arg t : String} (ha : arg = p ++ s)
    (h : p.toList.isPrefixOf t.toList = false) : arg ≠ t := by
  rintro rfl
  rw [ha, String.toList_append, List.isPrefixOf_iff_prefix.mpr (List.prefix_append _ _)] at h
  exact absurd h (by simp)

theorem isOpt_of_prefix {p s arg long short : String} (ha : arg = p ++ s)
    (h1 : ∃ i, i < p.toList.length ∧ i < long.toList.length ∧ p.toList[i]? ≠ long.toList[i]?)
    (h2 : ∃ i, i < p.toList.length ∧ i < short.toList.length ∧ p.toList[i]? ≠ short.toList[i]?) :
    isOpt long short arg = false := by
  have key : ∀ q : String,
      (∃ i, i < p.toList.length ∧ i < q.toList.length ∧ p.toList[i]? ≠ q.toList[i]?) →
      q.toList.isPrefixOf arg.toList = false := by
    rintro q ⟨i, hi, hj, hne⟩
    cases hb : q.toList.isPrefixOf arg.toList with
    | false => rfl
    | true =>
      exfalso
      obtain ⟨t, ht⟩ := List.isPrefixOf_iff_prefix.mp hb
      have e1 : arg.toList[i]? = p.toList[i]? := by
        rw [ha, String.toList_append, List.getElem?_append_left hi]
      have e2 : arg.toList[i]? = q.toList[i]? := by
        rw [← ht, List.getElem?_append_left hj]
      exact hne (e1.symm.trans e2)
  unfold isOpt
  rw [key _ h1, key _ h2]
  rfl

theorem mode_autoMode {a : String}
    (h : a ∈ ["manual", "nlopt", "branch", "branch-manual", "branch-nlopt"]) :
    autoMode a = modeBits a := by
  simp only [List.mem_cons, List.not_mem_nil, or_false] at h
  rcases h with rfl | rfl | rfl | rfl | rfl <;> decide

theorem step_item {c : Conv} {m m' : Main} {i : Item} {arg : String} {tail : List String}
    (hv : i.Valid) (ha : i.Asks c m m') (he : i.args = arg :: tail) (k : Nat) (rest : List String) :
    step c m k arg (tail ++ rest) = .next { m' with parseArg := k } (!tail.isEmpty) ∧
      tail = tail.take 1 := by
  cases i with
  | file n =>
    obtain ⟨rfl, rfl⟩ := List.cons.inj he
    have ha : m' = _ := ha
    have hv : n.toList.head? ≠ some '-' := hv
    have hne : ∀ l : List String, (∀ s ∈ l, s.toList.head? = some '-') → n ∉ l :=
      fun l hl hn => hv (hl n hn)
    have ho : ∀ long short : String, long.toList.head? = some '-' → short.toList.head? = some '-' →
        getParam n rest long short = none := fun long short h1 h2 =>
      getParam_none rest (isOpt_file hv h1 h2)
    have e1 : n ≠ "--random" := by simpa using hne ["--random"] (by decide)
    have e2 : n ≠ "--debug" := by simpa using hne ["--debug"] (by decide)
    refine ⟨?_, rfl⟩
    rw [List.nil_append, step_last (hne _ (by decide)) (ho _ _ rfl rfl) (hne _ (by decide))
      (ho _ _ rfl rfl) (ho _ _ rfl rfl) (ho _ _ rfl rfl), ha]
    unfold lastOptions
    rw [ho "--check" "-C" rfl rfl, ho "--param" "-p" rfl rfl]
    simp [e1, e2]
  | help s =>
    obtain ⟨rfl, rfl⟩ := List.cons.inj he
    have ha : m' = _ := ha
    refine ⟨?_, rfl⟩
    rw [ha]
    cases s <;> simp [step]
  | quiet s =>
    obtain ⟨rfl, rfl⟩ := List.cons.inj he
    have ha : m' = _ := ha
    refine ⟨?_, rfl⟩
    rw [ha]
    cases s <;> simp [step]
  | optimize s =>
    obtain ⟨rfl, rfl⟩ := List.cons.inj he
    have ha : m' = _ := ha
    refine ⟨?_, rfl⟩
    rw [ha]
    cases s <;> simp [step]
  | noPreprocessing s =>
    obtain ⟨rfl, rfl⟩ := List.cons.inj he
    have ha : m' = _ := ha
    refine ⟨?_, rfl⟩
    rw [ha]
    cases s
    · simp only [Bool.false_eq_true, if_false, List.nil_append]
      unfold step
      rw [getParam_none rest (by decide)]
      simp
    · simp only [if_true, List.nil_append]
      unfold step
      rw [getParam_none rest (by decide)]
      simp
  | random =>
    obtain ⟨rfl, rfl⟩ := List.cons.inj he
    have ha : m' = _ := ha
    refine ⟨?_, rfl⟩
    rw [ha, List.nil_append, step_last (by decide) (getParam_none rest (by decide)) (by decide)
      (getParam_none rest (by decide)) (getParam_none rest (by decide))
      (getParam_none rest (by decide))]
    unfold lastOptions
    rw [getParam_none rest (by decide), getParam_none rest (by decide)]
    simp
  | debug =>
    obtain ⟨rfl, rfl⟩ := List.cons.inj he
    have ha : m' = _ := ha
    refine ⟨?_, rfl⟩
    rw [ha, List.nil_append, step_last (by decide) (getParam_none rest (by decide)) (by decide)
      (getParam_none rest (by decide)) (getParam_none rest (by decide))
      (getParam_none rest (by decide))]
    unfold lastOptions
    rw [getParam_none rest (by decide), getParam_none rest (by decide)]
    simp
  | bench n f =>
    have ha : m' = _ := ha
    have hg := getParam_written (rest := rest) he hv (by decide)
      (fun v => by simp [String.toList_append, List.isPrefixOf])
    refine ⟨?_, hg.2⟩
    have hne : arg ∉ ["--help", "-h", "--quiet", "-q", "--optimize", "-O"] := by
      rcases written_prefix he with ⟨s, hs⟩ | ⟨s, hs⟩ <;>
        (simp only [List.mem_cons, List.not_mem_nil, or_false, not_or]
         exact ⟨ne_of_prefix hs (by decide), ne_of_prefix hs (by decide),
           ne_of_prefix hs (by decide), ne_of_prefix hs (by decide),
           ne_of_prefix hs (by decide), ne_of_prefix hs (by decide)⟩)
    simp only [List.mem_cons, List.not_mem_nil, or_false, not_or] at hne
    unfold step
    rw [hg.1, ha]
    simp [hne]
  | auto a f =>
    have ha : m' = _ := ha
    have hg := getParam_written (rest := rest) he
      (fun _ h => by
        have hv : a ∈ ["manual", "nlopt", "branch", "branch-manual", "branch-nlopt"] := hv
        rw [h] at hv
        exact absurd hv (by decide)) (by decide)
      (fun v => by simp [String.toList_append, List.isPrefixOf])
    refine ⟨?_, hg.2⟩
    have hne : arg ∉ ["--help", "-h", "--quiet", "-q", "--optimize", "-O",
        "--disable-preprocessing", "-np"] := by
      rcases written_prefix he with ⟨s, hs⟩ | ⟨s, hs⟩ <;>
        (simp only [List.mem_cons, List.not_mem_nil, or_false, not_or]
         exact ⟨ne_of_prefix hs (by decide), ne_of_prefix hs (by decide),
           ne_of_prefix hs (by decide), ne_of_prefix hs (by decide),
           ne_of_prefix hs (by decide), ne_of_prefix hs (by decide),
           ne_of_prefix hs (by decide), ne_of_prefix hs (by decide)⟩)
    have hb : getParam arg (tail ++ rest) "--bench" "-b" = none := by
      apply getParam_none
      rcases written_prefix he with ⟨s, hs⟩ | ⟨s, hs⟩
      · exact isOpt_of_prefix hs ⟨2, by decide⟩ ⟨1, by decide⟩
      · exact isOpt_of_prefix hs ⟨1, by decide⟩ ⟨1, by decide⟩
    simp only [List.mem_cons, List.not_mem_nil, or_false, not_or] at hne
    unfold step
    rw [hg.1, ha, hb, ← mode_autoMode hv]
    simp [hne]
  | param n v sep f =>
    obtain ⟨hn, hv', hs, h1, h2⟩ := hv
    obtain ⟨p, rfl, hp⟩ := ha
    have hg := getParam_written (rest := rest) he
      (fun _ h => by
        have := congrArg String.toList h
        simp at this) (by decide)
      (fun v => by simp [String.toList_append, List.isPrefixOf])
    refine ⟨?_, hg.2⟩
    have hne : arg ∉ ["--help", "-h", "--quiet", "-q", "--optimize", "-O"] ∧
        arg ∉ ["--disable-preprocessing", "-np"] := by
      rcases written_prefix he with ⟨s, hs⟩ | ⟨s, hs⟩ <;>
        (simp only [List.mem_cons, List.not_mem_nil, or_false, not_or]
         exact ⟨⟨ne_of_prefix hs (by decide), ne_of_prefix hs (by decide),
           ne_of_prefix hs (by decide), ne_of_prefix hs (by decide),
           ne_of_prefix hs (by decide), ne_of_prefix hs (by decide)⟩,
           ne_of_prefix hs (by decide), ne_of_prefix hs (by decide)⟩)
    have ho : ∀ long short : String,
        (∃ i, i < "--param".toList.length ∧ i < long.toList.length ∧
          "--param".toList[i]? ≠ long.toList[i]?) →
        (∃ i, i < "--param".toList.length ∧ i < short.toList.length ∧
          "--param".toList[i]? ≠ short.toList[i]?) →
        (∃ i, i < "-p".toList.length ∧ i < long.toList.length ∧
          "-p".toList[i]? ≠ long.toList[i]?) →
        (∃ i, i < "-p".toList.length ∧ i < short.toList.length ∧
          "-p".toList[i]? ≠ short.toList[i]?) →
        getParam arg (tail ++ rest) long short = none := by
      intro long short h1 h2 h3 h4
      apply getParam_none
      rcases written_prefix he with ⟨s, hs⟩ | ⟨s, hs⟩
      · exact isOpt_of_prefix hs h1 h2
      · exact isOpt_of_prefix hs h3 h4
    rw [step_last hne.1 (ho _ _ ⟨2, by decide⟩ ⟨1, by decide⟩ ⟨1, by decide⟩ ⟨1, by decide⟩) hne.2
      (ho _ _ ⟨2, by decide⟩ ⟨1, by decide⟩ ⟨1, by decide⟩ ⟨1, by decide⟩)
      (ho _ _ ⟨2, by decide⟩ ⟨1, by decide⟩ ⟨1, by decide⟩ ⟨1, by decide⟩)
      (ho _ _ ⟨2, by decide⟩ ⟨1, by decide⟩ ⟨1, by decide⟩ ⟨1, by decide⟩)]
    unfold lastOptions
    rw [ho "--check" "-C" ⟨2, by decide⟩ ⟨1, by decide⟩ ⟨1, by decide⟩ ⟨1, by decide⟩, hg.1]
    simp only [splitArgument_param hv' hs h1 h2, hn, hv', or_self, if_false, hp, ne_eq,
      not_true_eq_false]

theorem Item.args_cons (i : Item) : ∃ arg tail, i.args = arg :: tail := by
  cases i <;> (try exact ⟨_, _, rfl⟩) <;> rename_i f <;> cases f <;> exact ⟨_, _, rfl⟩

theorem Item.Asks.parseArg {c : Conv} {i : Item} {m m' : Main} (h : i.Asks c m m') (k : Nat) :
    i.Asks c { m with parseArg := k } { m' with parseArg := k } := by
  cases i with
  | param n v sep f =>
    obtain ⟨p, rfl, hp⟩ := h
    exact ⟨p, rfl, hp⟩
  | _ => (have h : m' = _ := h); rw [h]; rfl

theorem AllAsk.parseArg {c : Conv} {l : List Item} {m m' : Main} (h : AllAsk c m l m') (k : Nat) :
    AllAsk c { m with parseArg := k } l { m' with parseArg := k } := by
  induction h with
  | nil m => exact .nil _
  | cons hi _ ih => exact .cons (hi.parseArg k) ih

theorem loop_items {c : Conv} {l : List Item} : ∀ {m m' : Main} (_ : ∀ i ∈ l, i.Valid)
    (_ : AllAsk c m l m') (n k : Nat) (_ : (l.flatMap Item.args).length ≤ n),
    ∃ k', loop c n m k (l.flatMap Item.args) = { m' with parseArg := k' } := by
  induction l with
  | nil =>
    intro m m' _ h n k _
    cases h
    refine ⟨m.parseArg, ?_⟩
    cases n <;> rfl
  | cons i l ih =>
    intro m m' hv h n k hn
    cases h with
    | cons hi hl =>
      rename_i m1
      obtain ⟨arg, tail, he⟩ := i.args_cons
      rw [List.flatMap_cons, he] at hn ⊢
      obtain ⟨hs, ht⟩ := step_item (hv i List.mem_cons_self) hi he k (l.flatMap Item.args)
      cases n with
      | zero => simp at hn
      | succ n =>
        rw [List.cons_append]
        unfold loop
        rw [hs]
        have hlen : (l.flatMap Item.args).length ≤ n := by
          simp only [List.cons_append, List.length_cons, List.length_append] at hn
          omega
        have hrest : (if (!tail.isEmpty) = true then (tail ++ l.flatMap Item.args).tail
            else tail ++ l.flatMap Item.args) = l.flatMap Item.args := by
          cases tail with
          | nil => rfl
          | cons x tail =>
            have : tail = [] := by simpa using ht
            rw [this]; rfl
        simp only [hrest]
        exact ih (fun j hj => hv j (List.mem_cons_of_mem _ hj)) (hl.parseArg k) n _ hlen

end Bx.CommandLine
