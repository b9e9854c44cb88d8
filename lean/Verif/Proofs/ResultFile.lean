import Verif.Model.ResultFile
import Verif.Model.Lpcore
import Verif.Spec.ResultFile
import Verif.Proofs.Lpcore
import Mathlib.Data.List.TakeWhile

/-! # Lemmas on the files of results -/

namespace Bx.ResultFile

open Bx.Spec.ResultFile
open Bx.Parser (isSpace isDigitC)

theorem isSpace_iff (c : Char) : isSpace c = true ↔ Blank c := by
  simp [isSpace, Blank, or_assoc]

theorem takeWhile_until {a : Char} {l rest : List Char} (h : a ∉ l) :
    (l ++ a :: rest).takeWhile (fun c => decide (c ≠ a)) = l := by
  induction l with
  | nil => simp
  | cons b l ih =>
    simp only [List.mem_cons, not_or] at h
    have hb : b ≠ a := fun e => h.1 e.symm
    simpa [hb] using ih h.2

theorem dropWhile_until {a : Char} {l rest : List Char} (h : a ∉ l) :
    (l ++ a :: rest).dropWhile (fun c => decide (c ≠ a)) = a :: rest := by
  induction l with
  | nil => simp
  | cons b l ih =>
    simp only [List.mem_cons, not_or] at h
    have hb : b ≠ a := fun e => h.1 e.symm
    simpa [hb] using ih h.2

/-- A line that ends with a newline. -/
theorem readLines_line {l rest : List Char} {s : State} (h : '\n' ∉ l) :
    readLines (l ++ '\n' :: rest) s = (do
      let x ← readLine l
      readLines rest (s.push x)) := by
  rw [readLines]
  split
  · rename_i e
    rw [dropWhile_until h] at e
    cases e
  · rename_i c rest' e
    rw [dropWhile_until h] at e
    injection e with e1 e2
    subst e2
    rw [takeWhile_until h]

theorem readLines_nil (s : State) : readLines [] s = .ok s := by
  rw [readLines]; rfl

/-- A line of comment is skipped. -/
theorem readLines_comment {l rest : List Char} {s : State} (h : '\n' ∉ l) :
    readLines ('\\' :: l ++ '\n' :: rest) s = readLines rest s := by
  rw [readLines_line (by simpa using h)]
  have e : readLine ('\\' :: l) = .ok .comment := by
    unfold readLine
    rw [show ('\\' :: l).dropWhile isSpace = '\\' :: l from
      List.dropWhile_cons_of_neg (by decide)]
    rfl
  rw [e]; rfl

theorem readable_drop {n rest : List Char} (h : ∀ u v, n = u ++ '\\' :: v → ∃ c ∈ u, ¬ Blank c)
    (t : List Char) (a : Char) (ha : a ≠ '\\') (hs : isSpace a = false) :
    (n ++ a :: rest).dropWhile isSpace ≠ '\\' :: t := by
  intro e
  have e2 := List.takeWhile_append_dropWhile (p := isSpace) (l := n ++ a :: rest)
  rw [e] at e2
  have hall : ∀ c ∈ (n ++ a :: rest).takeWhile isSpace, isSpace c = true :=
    fun c hc => List.mem_takeWhile_imp hc
  generalize (n ++ a :: rest).takeWhile isSpace = u at e2 hall
  rcases List.append_eq_append_iff.1 e2 with ⟨w, h1, h2⟩ | ⟨w, h1, h2⟩
  · cases w with
    | nil =>
      simp only [List.nil_append, List.cons.injEq] at h2
      exact ha h2.1.symm
    | cons b w =>
      simp only [List.cons_append, List.cons.injEq] at h2
      obtain ⟨rfl, _⟩ := h2
      obtain ⟨c, hc, hb⟩ := h u w h1
      exact hb ((isSpace_iff c).1 (hall c hc))
  · cases w with
    | nil =>
      simp only [List.nil_append, List.cons.injEq] at h2
      exact ha h2.1
    | cons b w =>
      simp only [List.cons_append, List.cons.injEq] at h2
      obtain ⟨rfl, _⟩ := h2
      have := hall a (by rw [h1]; simp)
      rw [hs] at this
      cases this

/-- A line of value. -/
theorem readLine_value {n : String} (h : Readable n) (b : Bool) :
    readLine (n.toList ++ ['=', if b then '1' else '0']) = .ok (.value n.toList b) := by
  obtain ⟨h0, _, h2, h3⟩ := h
  unfold readLine
  split
  · rename_i t e
    exact absurd e (readable_drop h3 t '=' (by decide) (by decide))
  · rw [if_pos (by simp)]
    have e1 : (n.toList ++ ['=', if b then '1' else '0']).takeWhile (fun c => decide (c ≠ '='))
        = n.toList := takeWhile_until h2
    have e2 : (n.toList ++ ['=', if b then '1' else '0']).drop (n.toList.length + 1)
        = [if b then '1' else '0'] := by
      rw [List.drop_append]; simp
    simp only [e1, e2]
    have h4 : ¬ n.toList.length > Utils.nodeLength := Nat.not_lt.2 h0
    cases b
    · exact if_neg h4
    · exact if_neg h4

/-- What the lines of the names and the values add. -/
def State.addAll (s : State) (ns : List String) (vs : List Int) : State :=
  ⟨s.names ++ ns, s.values ++ vs.map fun v => if v ≠ 0 then 1 else 0⟩

theorem readLines_values : ∀ (ns : List String) (vs : List Int), ns.length = vs.length →
    (∀ n ∈ ns, Readable n) →
    ∃ t, writeValues ns vs = .ok t ∧ ∀ rest s,
      readLines (t ++ rest) s = readLines rest (s.addAll ns vs)
  | [], [], _, _ => ⟨[], rfl, fun rest s => by simp [State.addAll]⟩
  | n :: ns, v :: vs, hl, hr => by
    obtain ⟨t, h1, h2⟩ := readLines_values ns vs (by simpa using hl)
      fun m hm => hr m (List.mem_cons_of_mem _ hm)
    refine ⟨_, by rw [writeValues, h1]; rfl, fun rest s => ?_⟩
    have hn := hr n (List.mem_cons_self ..)
    have e : (n.toList ++ '=' :: (if v ≠ 0 then '1' else '0') :: '\n' :: t) ++ rest =
        (n.toList ++ ['=', if decide (v ≠ 0) then '1' else '0']) ++ '\n' :: (t ++ rest) := by
      simp
    rw [e, readLines_line, readLine_value hn]
    · show readLines (t ++ rest) _ = _
      rw [h2]
      congr 1
      simp only [State.addAll, State.push, String.ofList_toList]
      simp
    · have := hn.2.1
      by_cases hv : v = 0 <;> simp [hv, this]

/-- The texts that are written in comments. -/
def Header.texts (h : Header) : List (List Char) :=
  [h.method, h.constraints, h.vars, h.duration, h.loop, h.status, h.remaining] ++ h.values

/-- No text of a comment has a newline. -/
def Header.OneLine (h : Header) : Prop := ∀ t ∈ h.texts, '\n' ∉ t

theorem readLines_commentLine {label : String} {l : List Char} (hl : label.toList = '\\' :: l)
    (h1 : '\n' ∉ l) {v : List Char} (h2 : '\n' ∉ v) (rest : List Char) (s : State) :
    readLines (commentLine label v ++ rest) s = readLines rest s := by
  have e : commentLine label v ++ rest = '\\' :: (l ++ v) ++ '\n' :: rest := by
    simp [commentLine, hl]
  rw [e, readLines_comment (by simp [h1, h2])]

/-- The six first lines. -/
theorem readLines_head {h : Header} (ho : h.OneLine) (rest : List Char) (s : State) :
    readLines (commentLine "\\ solver................: " h.method ++
      commentLine "\\ constraints...........: " h.constraints ++
      commentLine "\\ variables.............: " h.vars ++
      commentLine "\\ duration..............: " (h.duration ++ ['s']) ++
      commentLine "\\ loop..................: " h.loop ++
      commentLine "\\ status................: " h.status ++ rest) s = readLines rest s := by
  have hm : ∀ t ∈ [h.method, h.constraints, h.vars, h.duration, h.loop, h.status,
      h.remaining], '\n' ∉ t := fun t ht => ho t (List.mem_append_left _ ht)
  simp only [List.append_assoc]
  rw [readLines_commentLine (l := " solver................: ".toList) rfl (by decide)
      (hm _ (by simp)),
    readLines_commentLine (l := " constraints...........: ".toList) rfl (by decide)
      (hm _ (by simp)),
    readLines_commentLine (l := " variables.............: ".toList) rfl (by decide)
      (hm _ (by simp)),
    readLines_commentLine (l := " duration..............: ".toList) rfl (by decide)
      (by have := hm h.duration (by simp); simp [this]),
    readLines_commentLine (l := " loop..................: ".toList) rfl (by decide)
      (hm _ (by simp)),
    readLines_commentLine (l := " status................: ".toList) rfl (by decide)
      (hm _ (by simp))]

theorem readLines_write {h : Header} (ho : h.OneLine) {r : Result} {sol : Solution}
    (hst : r.status = .success) (hs : r.solutions.getLast? = some sol)
    (ha : r.affected.names.length = r.affected.values.length)
    (hv : r.variableName.length = sol.variables.length)
    (hr : ∀ n ∈ r.affected.names ++ r.variableName, Readable n) :
    ∃ t, writeResult h r = .ok t ∧ ∀ s, readLines t s =
      .ok ((s.addAll r.affected.names r.affected.values).addAll r.variableName sol.variables) := by
  obtain ⟨ta, ea, ra⟩ := readLines_values _ _ ha fun n hn => hr n (List.mem_append_left _ hn)
  obtain ⟨tb, eb, rb⟩ := readLines_values _ _ hv fun n hn => hr n (List.mem_append_right _ hn)
  have hval : ∀ v ∈ h.values, '\n' ∉ v := fun v hm => ho v (List.mem_append_right _ hm)
  have hlast : '\n' ∉ h.values.getLastD [] := by
    rw [List.getLastD_eq_getLast?]
    cases e : h.values.getLast? with
    | none => simp
    | some v => exact hval v (List.mem_of_getLast? e)
  refine ⟨_, by simp only [writeResult, hst, hs, ea, eb]; rfl, fun s => ?_⟩
  simp only [List.append_assoc]
  have hd := readLines_head ho
  simp only [List.append_assoc] at hd
  rw [hd, readLines_commentLine (l := " value.................: ".toList) rfl (by decide) hlast]
  have key : ∀ s, readLines (commentLine "\\ variables.............: " [] ++ (ta ++ tb)) s =
      .ok ((s.addAll r.affected.names r.affected.values).addAll r.variableName sol.variables) := by
    intro s
    rw [readLines_commentLine (l := " variables.............: ".toList) rfl (by decide) (by simp),
      ra]
    have := rb [] (s.addAll r.affected.names r.affected.values)
    rw [List.append_nil] at this
    rw [this, readLines_nil]
  split
  · rw [readLines_commentLine (l := " other value...........: ".toList) rfl (by decide)]
    · exact key s
    · intro hm
      obtain ⟨v, h1, h2⟩ := List.mem_flatMap.1 hm
      rw [List.mem_append] at h2
      rcases h2 with h2 | h2
      · exact hval v h1 h2
      · simp at h2
  · rw [List.nil_append]
    exact key s

/-- The writes of a list of names with the values normalised. -/
theorem writeAll_norm : ∀ (ns : List String) (vs : List Int) (c : Lpcore.Cache),
    Lpcore.writeAll ns (vs.map fun v => if v ≠ 0 then 1 else 0) c = Lpcore.writeAll ns vs c
  | [], _, _ => by simp [Lpcore.writeAll]
  | _ :: _, [], _ => by simp [Lpcore.writeAll]
  | n :: ns, v :: vs, c => by
    simp only [List.map_cons, Lpcore.writeAll]
    rw [writeAll_norm ns vs]
    congr 1
    by_cases hv : v = 0 <;> simp [Lpcore.Cache.write, hv]

theorem writeAll_append : ∀ (ns ms : List String) (vs ws : List Int) (c : Lpcore.Cache),
    ns.length = vs.length →
    Lpcore.writeAll (ns ++ ms) (vs ++ ws) c = Lpcore.writeAll ms ws (Lpcore.writeAll ns vs c)
  | [], _, [], _, _, _ => by simp [Lpcore.writeAll]
  | n :: ns, ms, v :: vs, ws, c, h => by
    simp only [List.cons_append, Lpcore.writeAll]
    exact writeAll_append ns ms vs ws _ (by simpa using h)

end Bx.ResultFile
