import Verif.Proofs.Benchmark
import Verif.Props.Utils

/-!
# Lemmas on the text of a benchmark file
-/

namespace Bx.Benchmark

open Bx.Params Bx.Utils Bx.Spec.Benchmark

/-! ## Names -/

theorem isSep_iff (c : Char) : isSep c = true ↔ Separator c := by
  simp only [isSep, Separator, List.contains_iff_mem]

theorem mem_of_blank {c : Char} (h : Blank c) : c ∈ blanks := by
  simpa [Blank, blanks] using h

theorem nameOk_of {w : Text} (h : ∃ c ∈ w, c ∉ blanks) : nameOk w = true := by
  obtain ⟨c, hc, hb⟩ := h
  obtain ⟨a, b, he, ha, hb', _, _⟩ := C53_trim w
  unfold nameOk
  cases ht : trim w with
  | cons _ _ => rfl
  | nil =>
    rw [he, ht] at hc
    simp only [List.append_nil, List.mem_append] at hc
    exfalso
    rcases hc with hc | hc
    · exact hb (mem_of_blank (ha c hc))
    · exact hb (mem_of_blank (hb' c hc))

theorem notBlank {c : Char} (h1 : ¬ Separator c) (h2 : c ≠ ' ') : c ∉ blanks := by
  simp only [Separator, blanks, List.mem_cons, List.not_mem_nil, or_false] at *
  tauto

theorem word_nonblank {w : Text} (h : Word w) : ∃ c ∈ w, c ∉ blanks := by
  obtain ⟨c, hc, hs⟩ := h.2
  exact ⟨c, hc, notBlank (h.1 c hc) hs⟩

theorem word_ne_nil {w : Text} (h : Word w) : w ≠ [] := by
  obtain ⟨c, hc, _⟩ := h.2
  exact List.ne_nil_of_mem hc

theorem word_noSep {w : Text} (h : Word w) : ∀ c ∈ w, isSep c = false := by
  intro c hc
  have := h.1 c hc
  rw [← isSep_iff] at this
  simpa using this

theorem trim_length (w : Text) : (trim w).length ≤ w.length := by
  obtain ⟨a, b, he, _⟩ := C53_trim w
  have := congrArg List.length he
  simp only [List.length_append] at this
  omega

theorem cellOf_faithful {num : Text → Option D} {txt : D → Text} {v : D}
    (h : Faithful num txt v) : cellOf num (txt v) = v := by
  obtain ⟨h1, h2, h3⟩ := h
  have ht : (trim (txt v)).isEmpty = false := by
    have := nameOk_of (word_nonblank h1)
    unfold nameOk at this
    simpa using this
  have hl := trim_length (txt v)
  unfold cellOf toDouble
  rw [if_neg (by omega), ht, h3]
  rfl

/-! ## Words -/

theorem words_word (d : Char) (hd : isSep d = true) (rest : Text) :
    ∀ w : Text, w ≠ [] → (∀ c ∈ w, isSep c = false) → words (w ++ d :: rest) = w :: words rest
  | [], h, _ => absurd rfl h
  | [c], _, h => by
    have hc := h c (by simp)
    simp [words, hc, hd]
  | c :: c' :: w, _, h => by
    have hc := h c (by simp)
    have hc' := h c' (by simp)
    have ih := words_word d hd rest (c' :: w) (by simp) (fun x hx => h x (by simp [hx]))
    simp only [List.cons_append] at ih ⊢
    rw [words, if_neg (by simp [hc])]
    simp only [hc', Bool.false_eq_true, if_false, ih]

theorem words_line (rest : Text) : ∀ (fs : List Text) (m : Text), Word m → (∀ f ∈ fs, Word f) →
    words (line m fs ++ rest) = m :: fs ++ words rest
  | [], m, hm, _ => by
    have := words_word '\n' (by decide) rest m (word_ne_nil hm) (word_noSep hm)
    simpa [line] using this
  | f :: fs, m, hm, h => by
    have ih := words_line rest fs f (h f (by simp)) (fun x hx => h x (by simp [hx]))
    have := words_word ',' (by decide) (line f fs ++ rest) m (word_ne_nil hm) (word_noSep hm)
    rw [ih] at this
    simpa [line] using this

theorem words_body (txt : D → Text) : ∀ rows : List (Text × List D), (∀ r ∈ rows, Word r.1) →
    (∀ r ∈ rows, ∀ v ∈ r.2, Word (txt v)) →
    words (rows.flatMap fun r => line r.1 (r.2.map txt)) =
      rows.flatMap fun r => r.1 :: r.2.map txt
  | [], _, _ => rfl
  | r :: rows, h1, h2 => by
    simp only [List.flatMap_cons]
    rw [words_line _ _ _ (h1 r (by simp)) (by
      intro f hf
      obtain ⟨v, hv, rfl⟩ := List.mem_map.1 hf
      exact h2 r (by simp) v hv),
      words_body txt rows (fun q hq => h1 q (by simp [hq])) (fun q hq => h2 q (by simp [hq]))]

theorem touches_line (m : Text) (fs : List Text) (before_ : Text) :
    touches (before_ ++ line m fs) = false := by
  have : (before_ ++ line m fs).getLast? = some '\n' := by
    simp [line, ← List.append_assoc]
  unfold touches
  rw [this]
  decide

theorem touches_body (txt : D → Text) (rows : List (Text × List D)) :
    touches (rows.flatMap fun r => line r.1 (r.2.map txt)) = false := by
  rcases List.eq_nil_or_concat rows with rfl | ⟨rs, r, rfl⟩
  · rfl
  · simp only [List.concat_eq_append, List.flatMap_append, List.flatMap_cons, List.flatMap_nil,
      List.append_nil]
    exact touches_line _ _ _

/-! ## The header -/

theorem fields_field : ∀ (f : Text), (∀ c ∈ f, c ≠ ',') → fields f = [f]
  | [], _ => rfl
  | c :: f, h => by
    rw [fields, if_neg (h c (by simp)), fields_field f fun x hx => h x (by simp [hx])]

theorem fields_cons (rest : Text) : ∀ (f : Text), (∀ c ∈ f, c ≠ ',') →
    fields (f ++ ',' :: rest) = f :: fields rest
  | [], _ => by simp [fields]
  | c :: f, h => by
    rw [List.cons_append, fields, if_neg (h c (by simp)),
      fields_cons rest f fun x hx => h x (by simp [hx])]

theorem fields_all : ∀ (fs : List Text) (m : Text), (∀ c ∈ m, c ≠ ',') →
    (∀ f ∈ fs, ∀ c ∈ f, c ≠ ',') → fields (m ++ fs.flatMap fun f => ',' :: f) = m :: fs
  | [], m, hm, _ => by simpa using fields_field m hm
  | f :: fs, m, hm, h => by
    simp only [List.flatMap_cons, List.cons_append]
    rw [fields_cons _ _ hm, fields_all fs f (h f (by simp)) fun x hx => h x (by simp [hx])]

theorem readSolvers_ok : ∀ (l : List Text) (k : Nat), Solvers l → readSolvers k l = .ok l
  | [], _, _ => rfl
  | [f], k, h => by
    rw [readSolvers, if_pos (nameOk_of (h.1 f (by simp)).2)]
  | f :: g :: l, k, h => by
    have h1 : f.length ≠ 1 := h.2 f (by simp)
    have ih := readSolvers_ok (g :: l) (k + f.length + 1)
      ⟨fun s hs => h.1 s (by simp [List.mem_cons.1 hs]), fun s hs => h.2 s (by
        rw [List.dropLast_cons_of_ne_nil (by simp)]
        exact List.mem_cons_of_mem _ hs)⟩
    rw [readSolvers, if_pos ⟨h1, nameOk_of (h.1 f (by simp)).2⟩, ih, okBind]

theorem takeWhile_line (fs : List Text) (m rest : Text) (hm : ∀ c ∈ m, c ≠ '\n')
    (h : ∀ f ∈ fs, ∀ c ∈ f, c ≠ '\n') :
    (line m fs ++ rest).takeWhile (· ≠ '\n') = m ++ (fs.flatMap fun f => ',' :: f) ∧
    (line m fs ++ rest).dropWhile (· ≠ '\n') = '\n' :: rest := by
  have hall : ∀ c ∈ m ++ (fs.flatMap fun f => ',' :: f), (decide (c ≠ '\n')) = true := by
    intro c hc
    simp only [List.mem_append, List.mem_flatMap, List.mem_cons] at hc
    rcases hc with hc | ⟨f, hf, hc | hc⟩
    · simpa using hm c hc
    · subst hc; decide
    · simpa using h f hf c hc
  have he : line m fs ++ rest = (m ++ fs.flatMap fun f => ',' :: f) ++ '\n' :: rest := by
    simp [line]
  rw [he]
  constructor
  · rw [List.takeWhile_append_of_pos hall]
    simp
  · rw [List.dropWhile_append_of_pos hall]
    simp

/-! ## Reading a written table -/

theorem readLines_total (num : Text → Option D) :
    ∀ (more : List (Text × List Text)) (n ln : Nat) (b : Bench) (rows : List (Text × List Text)),
      (more.flatMap fun r => r.1 :: r.2).length ≤ n → Keeps num b rows →
      (∀ r ∈ more, nameOk r.1 = true) → (∀ r ∈ more, r.2.length = b.solvers.length) →
      ∃ b', readLines num false n ln b (more.flatMap fun r => r.1 :: r.2) = .ok b' ∧
        Keeps num b' (rows ++ more) ∧ b'.solvers = b.solvers
  | [], n, ln, b, rows, _, h, _, _ => by
    refine ⟨b, ?_, by simpa using h, rfl⟩
    cases n <;> rfl
  | (w, vs) :: more, 0, ln, b, rows, hn, _, _, _ => by simp at hn
  | (w, vs) :: more, n + 1, ln, b, rows, hn, h, hm, hl => by
    have hw : nameOk w = true := hm (w, vs) (by simp)
    have hv : vs.length = b.solvers.length := hl (w, vs) (by simp)
    simp only [List.flatMap_cons, List.cons_append, List.length_cons, List.length_append] at hn
    obtain ⟨h1, h2, h3, h4⟩ := h
    have step : ∃ b1, Keeps num b1 (rows ++ [(w, vs)]) ∧ b1.solvers = b.solvers ∧
        readLines num false (n + 1) ln b ((w, vs) :: more |>.flatMap fun r => r.1 :: r.2) =
          readLines num false n (ln + 1) b1 (more.flatMap fun r => r.1 :: r.2) := by
      simp only [List.flatMap_cons, List.cons_append]
      rw [readLines, if_neg (by simp), if_neg (by simp [hw])]
      have hmem : ∀ r ∈ rows ++ [(w, vs)], r.2.length = b.solvers.length := by
        intro r hr
        rcases List.mem_append.1 hr with hr | hr
        · exact h2 r hr
        · simp only [List.mem_singleton] at hr; subst hr; exact hv
      have hnm : ∀ r ∈ rows ++ [(w, vs)], nameOk r.1 = true := by
        intro r hr
        rcases List.mem_append.1 hr with hr | hr
        · exact h3 r hr
        · simp only [List.mem_singleton] at hr; subst hr; exact hw
      by_cases hs : b.solvers = []
      · rw [if_pos hs] at h4
        obtain rfl : vs = [] := List.length_eq_zero_iff.1 (by simp [hv, hs])
        refine ⟨{ b with models := b.models ++ [w] }, ⟨by simp [h1], hmem, hnm, by simpa [hs]⟩, rfl, ?_⟩
        rw [if_neg (by simp [hs])]
        rfl
      · rw [if_neg hs] at h4
        have hp : 0 < b.solvers.length := List.length_pos_iff.2 hs
        have hlen : ((rows.map fun r => r.2.map (cellOf num)).flatten).length =
            rows.length * b.solvers.length := by
          rw [flatten_length _ b.solvers.length, List.length_map]
          intro r hr
          obtain ⟨q, hq, rfl⟩ := List.mem_map.1 hr
          simpa using h2 q hq
        obtain ⟨a, g⟩ := readCells_total num ln b.solvers.length rows.length vs 0 b.array.pushLine _
          (more.flatMap fun r => r.1 :: r.2) (by omega) (holds_push h4) (by simpa using hlen)
        rw [hv] at g
        obtain ⟨vs', k1, k2, k3⟩ := readCells_ok num ln _ rows.length _ 0 _ _ _ a _
          (Nat.zero_add _) (holds_push h4) (by simpa using hlen) g
        obtain rfl : vs = vs' := List.append_cancel_right k2
        refine ⟨{ b with models := b.models ++ [w], array := a },
          ⟨by simp [h1], hmem, hnm, ?_⟩, rfl, ?_⟩
        · simp only [if_neg hs]
          simpa using k3
        · rw [if_pos hp, g, okBind]
    obtain ⟨b1, s1, s2, s3⟩ := step
    obtain ⟨b', t1, t2, t3⟩ := readLines_total num more n (ln + 1) b1 _ (by omega) s1
      (fun r hr => hm r (by simp [hr])) (fun r hr => by rw [s2]; exact hl r (by simp [hr]))
    exact ⟨b', s3.trans t1, by simpa using t2, t3.trans s2⟩

/-- What a benchmark holds for a table. -/
def Loaded (t : Table) (b : Bench) : Prop :=
  b.models = t.rows.map Prod.fst ∧ b.solvers = t.solvers ∧
  if t.solvers = [] then b.array = {}
  else Holds b.array t.solvers.length t.rows.length (t.rows.map Prod.snd).flatten

theorem load_csv {num : Text → Option D} {txt : D → Text} {t : Table} (h : t.Ok num txt) :
    ∃ b, load num (csv txt t) = .ok b ∧ Loaded t b := by
  have hcells : ∀ r ∈ t.rows, (r.2.map txt).map (cellOf num) = r.2 := by
    intro r hr
    rw [List.map_map]
    conv_rhs => rw [← List.map_id r.2]
    exact List.map_congr_left fun v hv => cellOf_faithful (h.cells r hr v hv)
  obtain ⟨htw, hdw⟩ := takeWhile_line t.solvers "file".toList
    (t.rows.flatMap fun r => line r.1 (r.2.map txt)) (by decide)
    (fun f hf c hc => ((h.solvers.1 f hf).1 c hc).2)
  have hf : fields ("file".toList ++ t.solvers.flatMap fun f => ',' :: f) =
      "file".toList :: t.solvers :=
    fields_all t.solvers _ (by decide) (fun f hf c hc => ((h.solvers.1 f hf).1 c hc).1)
  have hne : (csv txt t).isEmpty = false := by simp [csv, line]
  have hw := words_body txt t.rows h.names (fun r hr v hv => (h.cells r hr v hv).1)
  have hmap : (t.rows.flatMap fun r => r.1 :: r.2.map txt) =
      ((t.rows.map fun r => (r.1, r.2.map txt)).flatMap fun r => r.1 :: r.2) := by
    simp [List.flatMap_map]
  have hk : Keeps num
      ⟨[], t.solvers, if t.solvers.isEmpty then {} else Dyn.init {} t.solvers.length⟩ [] := by
    refine ⟨rfl, by simp, by simp, ?_⟩
    by_cases hs : t.solvers = []
    · simp [hs]
    · simp only [if_neg hs, List.isEmpty_iff, List.map_nil, List.flatten_nil, List.length_nil]
      exact holds_init _
  obtain ⟨b, g1, ⟨k1, k2, k3, k4⟩, g3⟩ := readLines_total num
    (t.rows.map fun r => (r.1, r.2.map txt)) _ 2 _ [] (Nat.le_refl _) hk
    (by
      intro r hr
      obtain ⟨q, hq, rfl⟩ := List.mem_map.1 hr
      exact nameOk_of (word_nonblank (h.names q hq)))
    (by
      intro r hr
      obtain ⟨q, hq, rfl⟩ := List.mem_map.1 hr
      simpa using h.widths q hq)
  refine ⟨b, ?_, by rw [k1]; simp [Function.comp_def], g3, ?_⟩
  · unfold load
    rw [hne]
    have hsol : readHeader ("file".toList ++ t.solvers.flatMap fun f => ',' :: f) =
        .ok t.solvers := by
      unfold readHeader
      rw [hf]
      cases hs : t.solvers with
      | nil => rfl
      | cons a l => exact readSolvers_ok (a :: l) _ (hs ▸ h.solvers)
    unfold csv
    simp only [Bool.false_eq_true, if_false]
    rw [htw, hdw, hsol, okBind, List.drop_one, List.tail_cons, touches_body, hw, hmap]
    exact g1
  · rw [g3] at k4
    simp only [List.nil_append, List.map_map, List.length_map] at k4
    have : (t.rows.map ((fun r : Text × List Text => r.2.map (cellOf num)) ∘
        fun r => (r.1, r.2.map txt))) = t.rows.map Prod.snd :=
      List.map_congr_left fun r hr => hcells r hr
    rwa [this] at k4

end Bx.Benchmark
