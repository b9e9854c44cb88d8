import Verif.Proofs.Observer

/-!
# C97, C98, C99: the observers
-/

namespace Bx.Observer

open Params (D longMax)
open Sparse (Matrix)
open Merge (Merged)
open Spec

/-! ## C97: colours -/

/-- C97: every number that is not NaN has a colour, which depends only on the nearest number between
-1 and 1, on the scale blue, cyan, green, yellow, red. -/
theorem C97_colour_of_a_number (v : D) (q : Rat) (h : nearest v = some q) :
    ∃ c, colormap (-1) 1 v = .ok c ∧ (c.red, c.green, c.blue) = shade q :=
  ⟨_, colormap_eq h, rfl⟩

/-- C97: the channels of a colour are bytes and the colour tells the number, between -1 and 1, to
within 1/510. -/
theorem C97_colour_tells_the_number (v : D) (q : Rat) (h : nearest v = some q) :
    ∃ c, colormap (-1) 1 v = .ok c ∧ c.red ≤ 255 ∧ c.green ≤ 255 ∧ c.blue ≤ 255 ∧
      |told (c.red, c.green, c.blue) - q| ≤ 1 / 510 := by
  obtain ⟨h0, h1⟩ := nearest_range h
  obtain ⟨r, g, b⟩ := shade_range q
  exact ⟨_, colormap_eq h, r, g, b, told_shade h0 h1⟩

/-- C97 is false of NaN: its conversion to a byte is undefined. -/
theorem C97_nan : ∃ w, colormap (-1) 1 .nan = .error (.ub w) := ⟨_, rfl⟩

example : colormap (-1) 1 .ninf = .ok ⟨0, 0, 255⟩ ∧ colormap (-1) 1 (.fin (-3 / 4)) = .ok ⟨0, 127, 255⟩ ∧
    colormap (-1) 1 (.fin (1 / 3)) = .ok ⟨170, 255, 0⟩ ∧ colormap (-1) 1 (.fin 7) = .ok ⟨255, 0, 0⟩ := by
  decide +kernel

/-! ## C98: the image of the multipliers -/

section

variable (opens : String → Bool) (base : String) (csts : List Merged) (n L : Nat) (ap : Matrix)
  (os : List (List D × List D))

theorem pnmRun_eq (hmk : Sparse.make csts n = .ok ap)
    (hv : ∀ c ∈ csts, ∀ e ∈ c.elems, e.var < n) (hu : ∀ c ∈ csts, (c.elems.map FunElem.var).Nodup)
    (hne : ∃ c ∈ csts, c.elems ≠ []) (hs : 3 * csts.length * n < 2 ^ 32) (hL : 0 < L)
    (hL' : ((L * csts.length : Nat) : Int) ≤ longMax) (hos : ∀ o ∈ os, Seen csts o)
    (ho : opens s!"{base}-pi.pnm" = true) :
    pnmRun opens base csts.length n L ap os = .ok
      (some (image csts.length L fun r j =>
        if j = 0 then colourOf ((shown os r).getD (csts.length - 1) .nan) else black),
        (frames opens (fun i => s!"{base}-P-{i}.pnm") (fun P => image n csts.length (pixel csts P))
          os).map fun f => ⟨f.1, f.2⟩) := by
  have hm : 0 < csts.length := by
    obtain ⟨c, hc, _⟩ := hne
    exact List.length_pos_of_mem hc
  have hp : 0 < L * csts.length := Nat.mul_pos hL hm
  have h1 : PnmVector.make true csts.length L =
      .ok (vec csts.length L (bytes s!"P6 {csts.length} {(L : Int)} 255 ") []) := by
    unfold PnmVector.make
    have e : (L : Int) * (csts.length : Int) = ((L * csts.length : Nat) : Int) := by push_cast; rfl
    rw [e, if_neg (by simp), if_neg (by unfold longMax at *; omega), if_pos (by omega)]
    unfold vec line
    have e : (flat csts.length 1 fun _ j => if j = 0 then ([] : List Colour).getLast?.getD black else black) =
        List.replicate (3 * csts.length) 0 := by
      have := flat_black csts.length 1
      rw [Nat.one_mul, Nat.mul_comm] at this
      rw [← this]
      apply flat_congr
      intro _ _ j _
      simp
    rw [e]
    simp
  unfold pnmRun
  rw [ho, h1, ok_bind, pnmLoop_eq hmk hv hu hne hs hos, ok_bind]
  dsimp only
  rw [close_vec]
  congr 2
  · unfold image
    congr 2
    unfold flat
    simp only [List.nil_append, List.length_map]
    apply List.flatMap_congr
    intro r _
    apply List.flatMap_congr
    intro j _
    have : (os.map fun o => colourOf (o.2.getD (csts.length - 1) .nan)).getD (min r (os.length - 1)) black =
        colourOf ((shown os r).getD (csts.length - 1) .nan) := by
      unfold shown
      rw [List.getD_eq_getElem?_getD, List.getElem?_map, List.getElem?_map]
      cases os[min r (os.length - 1)]? with
      | none => rfl
      | some o => rfl
    rw [this]
  · unfold frames
    rw [List.nil_append, List.map_flatMap]
    apply List.flatMap_congr
    intro o _
    dsimp only
    split <;> rfl

/-- C98 (partial): at the end of a run whose limit of passes is `L`, the image of the multipliers is
a well formed image with `L` rows and a column for each constraint.  The first pixel of the row `r`
has the colour of the multiplier of the last constraint at the pass `r`, or at the last pass, and the
other pixels are black.  Missing: the multiplier of each constraint in its column, which is false
(`C98_other_multipliers_not_shown`). -/
theorem C98_image_partial (hmk : Sparse.make csts n = .ok ap)
    (hv : ∀ c ∈ csts, ∀ e ∈ c.elems, e.var < n) (hu : ∀ c ∈ csts, (c.elems.map FunElem.var).Nodup)
    (hne : ∃ c ∈ csts, c.elems ≠ []) (hs : 3 * csts.length * n < 2 ^ 32) (hL : 0 < L)
    (hL' : ((L * csts.length : Nat) : Int) ≤ longMax) (hos : ∀ o ∈ os, Seen csts o)
    (ho : opens s!"{base}-pi.pnm" = true) :
    ∃ files, pnmRun opens base csts.length n L ap os = .ok
      (some (image csts.length L fun r j =>
        if j = 0 then colourOf ((shown os r).getD (csts.length - 1) .nan) else black), files) :=
  ⟨_, pnmRun_eq opens base csts n L ap os hmk hv hu hne hs hL hL' hos ho⟩

/-- C98: with one constraint, the row `r` shows the multiplier at the pass `r`. -/
theorem C98_one_constraint (h1 : csts.length = 1) (hmk : Sparse.make csts n = .ok ap)
    (hv : ∀ c ∈ csts, ∀ e ∈ c.elems, e.var < n) (hu : ∀ c ∈ csts, (c.elems.map FunElem.var).Nodup)
    (hne : ∃ c ∈ csts, c.elems ≠ []) (hs : 3 * csts.length * n < 2 ^ 32) (hL : 0 < L)
    (hL' : ((L * csts.length : Nat) : Int) ≤ longMax) (hos : ∀ o ∈ os, Seen csts o)
    (ho : opens s!"{base}-pi.pnm" = true) :
    ∃ files, pnmRun opens base csts.length n L ap os = .ok
      (some (image csts.length L fun r j => colourOf ((shown os r).getD j .nan)), files) := by
  obtain ⟨files, h⟩ := C98_image_partial opens base csts n L ap os hmk hv hu hne hs hL hL' hos ho
  refine ⟨files, h.trans ?_⟩
  congr 3
  unfold image
  congr 1
  apply List.flatMap_congr
  intro r _
  apply List.flatMap_congr
  intro j hj
  have : j = 0 := by have := List.mem_range.mp hj; omega
  subst this
  rw [h1]
  rfl

/-- C98 is false when the file of the image cannot be opened: the first pass stops the process. -/
theorem C98_cannot_open (hm : 0 < csts.length) (ho : opens s!"{base}-pi.pnm" = false)
    (loop : Int) (o : List D × List D) (hs : Seen csts o) :
    ∃ w, pnmRun opens base csts.length n loop ap (o :: os) = .error (.contract w) := by
  obtain ⟨m, hm'⟩ : ∃ m, csts.length = m + 1 := ⟨csts.length - 1, by omega⟩
  have h0 : 0 < o.2.length := by rw [hs.2.1]; omega
  have hc : colormap (-1) 1 o.2[0] = .ok _ := colormap_colourOf (by
    intro e
    exact hs.2.2.2 (e ▸ List.getElem_mem h0))
  refine ⟨"m_entry.m_colors", ?_⟩
  unfold pnmRun PnmVector.make
  rw [ho]
  simp only [Bool.not_false, if_true, ok_bind]
  unfold pnmLoop piObserve
  rw [check_of (by simp), ok_bind, hm']
  unfold piLoop
  rw [readAt_eq (List.getElem?_eq_getElem h0), ok_bind, hc]
  rfl

end

/-- C98 is false without a limit: the limit is then the largest `long`, and with two constraints or
more the size of the image overflows. -/
theorem C98_no_limit (opens : String → Bool) (base : String) (m n : Nat) (ap : Matrix)
    (os : List (List D × List D)) (s p : Params.SolverParams) (hp : p.limit ≤ 0) (hm : 2 ≤ m)
    (ho : opens s!"{base}-pi.pnm" = true) :
    ∃ w, pnmRun opens base m n (Params.set s p).limit ap os = .error (.ub w) := by
  have hl : (Params.set s p).limit = longMax := by
    unfold Params.set
    exact if_pos hp
  have hb : longMax * (m : Int) > longMax := by
    have h2 : (2 : Int) ≤ m := by omega
    have h3 : longMax * 2 ≤ longMax * (m : Int) := Int.mul_le_mul_of_nonneg_left h2 (by decide)
    unfold longMax at *
    omega
  refine ⟨"m_heigth * m_width", ?_⟩
  unfold pnmRun PnmVector.make
  rw [ho, hl]
  simp only [Bool.not_true, Bool.false_eq_true, if_false]
  rw [if_pos (.inl hb)]
  rfl

/-- Two constraints: `x0 - x2` and `x2 + x1`. -/
def exCsts : List Merged := [⟨[⟨1, 0⟩, ⟨-1, 2⟩], 0, 1, 0⟩, ⟨[⟨1, 2⟩, ⟨1, 1⟩], 1, 1, 1⟩]

def exMatrix : Matrix := Sparse.result exCsts 3

/-- Two passes. -/
def exSeen : List (List D × List D) :=
  [([.fin (1 / 2), .fin 0, .fin (-1), .pinf], [.fin 1, .fin 0]),
   ([.fin (1 / 2), .fin 0, .fin (-1), .fin (1 / 3)], [.fin 1, .fin (-1 / 2)])]

instance (csts : List Merged) (o : List D × List D) : Decidable (Seen csts o) := by
  unfold Seen; infer_instance

/-- C98 is false with two constraints: the first multiplier is 1, which is red, and its pixel is
not. -/
theorem C98_other_multipliers_not_shown :
    ∃ b files, pnmRun (fun _ => true) "img" 2 3 2 exMatrix exSeen = .ok (some b, files) ∧
      b = image 2 2 (fun r j => if j = 1 then black else if r = 0 then (0, 255, 0) else (0, 255, 255)) ∧
      colourOf (.fin 1) = (255, 0, 0) ∧
      b ≠ image 2 2 fun r j => colourOf ((shown exSeen r).getD j .nan) := by
  obtain ⟨files, h⟩ := C98_image_partial (fun _ => true) "img" exCsts 3 2 exMatrix exSeen
    (by decide +kernel) (by decide +kernel) (by decide +kernel) (by decide +kernel) (by decide +kernel)
    (by decide) (by decide +kernel) (by decide +kernel) rfl
  refine ⟨_, files, h, ?_, ?_, ?_⟩ <;> decide +kernel

/-! ## C99: the images and the tables of the preferences -/

section

variable (opens : String → Bool) (base : String) (csts : List Merged) (n L : Nat) (ap : Matrix)
  (os : List (List D × List D))

/-- C99: each pass leaves a well formed image with a row for each constraint and a column for each
variable: a pixel has the colour of the preference of the variable in the constraint, and is black
when the variable is not in the constraint.  The images are numbered from 0. -/
theorem C99_images (hmk : Sparse.make csts n = .ok ap)
    (hv : ∀ c ∈ csts, ∀ e ∈ c.elems, e.var < n) (hu : ∀ c ∈ csts, (c.elems.map FunElem.var).Nodup)
    (hne : ∃ c ∈ csts, c.elems ≠ []) (hs : 3 * csts.length * n < 2 ^ 32) (hL : 0 < L)
    (hL' : ((L * csts.length : Nat) : Int) ≤ longMax) (hos : ∀ o ∈ os, Seen csts o)
    (ho : opens s!"{base}-pi.pnm" = true) :
    ∃ pi files, pnmRun opens base csts.length n L ap os = .ok (pi, files) ∧
      files.map (fun f => (f.name, f.text)) = frames opens (fun i => s!"{base}-P-{i}.pnm")
        (fun P => image n csts.length (pixel csts P)) os := by
  refine ⟨_, _, pnmRun_eq opens base csts n L ap os hmk hv hu hne hs hL hL' hos ho, ?_⟩
  rw [List.map_map]
  exact List.map_id _

/-- C99 is false of a large problem: the size of the image is computed on 32 bits, and a pixel after
this size is outside the buffer. -/
theorem C99_large_images (m : Nat) (hm : csts.length = m) (loop : Int)
    (hmk : Sparse.make csts n = .ok ap)
    (hv : ∀ c ∈ csts, ∀ e ∈ c.elems, e.var < n) (k j : Nat) (hkj : (k, j) ∈ places csts)
    (hs : 0 < (m * n) % 2 ^ 32) (hbig : (3 * m * n) % 2 ^ 32 ≤ (k * n + j) * 3 + 2)
    (o : List D × List D) :
    ∀ r, pnmRun opens base m n loop ap (o :: os) ≠ .ok r := by
  intro r h
  subst hm
  have hne : ∃ c ∈ csts, c.elems ≠ [] := by
    unfold places at hkj
    obtain ⟨⟨c, i⟩, hci, h⟩ := List.mem_flatMap.mp hkj
    refine ⟨c, List.fst_mem_of_mem_zipIdx hci, fun e => ?_⟩
    simp [e] at h
  obtain ⟨_, _, hR⟩ := row_rowOf hmk hv hne
  unfold pnmRun at h
  obtain ⟨v, _, h⟩ := bind_eq_ok.mp h
  obtain ⟨⟨v', fs⟩, h, _⟩ := bind_eq_ok.mp h
  unfold pnmLoop at h
  obtain ⟨v'', _, h⟩ := bind_eq_ok.mp h
  obtain ⟨fs', h, _⟩ := bind_eq_ok.mp h
  unfold apObserve PnmArray.make at h
  obtain ⟨_, _, h⟩ := bind_eq_ok.mp h
  have e1 : mulU n csts.length > 0 := by unfold mulU; rw [Nat.mul_comm]; exact hs
  simp only [e1, if_true] at h
  obtain ⟨buf, h, _⟩ := bind_eq_ok.mp h
  obtain ⟨p, hp⟩ := List.getElem?_of_mem hkj
  have hk : k < csts.length := by
    unfold places at hkj
    obtain ⟨⟨c, i⟩, hci, h⟩ := List.mem_flatMap.mp hkj
    obtain ⟨e, he, h⟩ := List.mem_map.mp h
    cases h
    exact (List.getElem?_eq_some_iff.mp (List.mk_mem_zipIdx_iff_getElem?.mp hci)).1
  have hb := (paintRows_bounds hR (by omega) h).2 k (by omega) hk ⟨p, j⟩ (mem_row.mpr hp)
  simp only [List.length_replicate] at hb
  have e2 : arraySize csts.length n = (3 * csts.length * n) % 2 ^ 32 := by
    unfold arraySize mulU
    rw [Nat.mod_mul_mod]
  rw [e2] at hb
  omega

/-- C99 (partial): with the observer `file`, each pass leaves a table of the preferences, when the
file of the multipliers cannot be opened.  Missing: when it can be opened, for which the claim is
false (`C99_file_undefined`). -/
theorem C99_tables_partial (num : D → String) (hmk : Sparse.make csts n = .ok ap)
    (hv : ∀ c ∈ csts, ∀ e ∈ c.elems, e.var < n) (hu : ∀ c ∈ csts, (c.elems.map FunElem.var).Nodup)
    (hne : ∃ c ∈ csts, c.elems ≠ []) (hos : ∀ o ∈ os, o.1.length = (places csts).length)
    (ho : opens s!"{base}-pi.txt" = false) :
    ∃ files, fileRun opens num base csts.length n ap os = .ok (none, files) ∧
      files.map (fun f => (f.name, f.text)) = frames opens (fun i => s!"{base}-P-{i}.txt")
        (table num csts n) os := by
  have key : ∀ (os : List (List D × List D)) (fs : Frames),
      (∀ o ∈ os, o.1.length = (places csts).length) →
      fileLoop opens num base csts.length n ap os (PiFile.make false) fs = .ok (PiFile.make false,
        { frame := fs.frame + os.length
          files := fs.files ++ (os.zipIdx fs.frame).flatMap fun o =>
            if opens s!"{base}-P-{o.2}.txt" then
              [⟨s!"{base}-P-{o.2}.txt", table num csts n o.1.1⟩] else [] }) := by
    intro os
    induction os with
    | nil => intro fs _; simp [fileLoop]
    | cons o os ih =>
      intro fs h
      unfold fileLoop
      have e : piFileObserve num csts.length (PiFile.make false) o.2 = .ok (PiFile.make false) := rfl
      rw [e, ok_bind, apFileObserve_eq hmk hv hu hne (h o (by simp)), ok_bind,
        ih _ (fun o' ho' => h o' (by simp [ho']))]
      congr 2
      simp only [List.length_cons, List.zipIdx_cons, List.flatMap_cons]
      congr 1
      · omega
      · split <;> simp
  unfold fileRun
  rw [ho, key os {} hos, ok_bind]
  refine ⟨_, rfl, ?_⟩
  unfold frames
  dsimp only
  rw [List.nil_append, List.map_flatMap]
  apply List.flatMap_congr
  intro x _
  split <;> rfl

/-- C99 is false of the observer `file`: the first pass reads a member that is never set. -/
theorem C99_file_undefined (num : D → String) (m : Nat) (ho : opens s!"{base}-pi.txt" = true)
    (o : List D × List D) :
    ∃ w, fileRun opens num base m n ap (o :: os) = .error (.ub w) := by
  refine ⟨"m_len", ?_⟩
  unfold fileRun
  rw [ho]
  rfl

end

example : ∃ pi files, pnmRun (fun s => s ≠ "img-P-1.pnm") "img" 2 3 5 exMatrix exSeen = .ok (pi, files) ∧
    files = [⟨"img-P-0.pnm", ("P6 3 2 255 ".toList.map Char.toNat) ++
      [255, 255, 0, 0, 0, 0, 0, 255, 0, 0, 0, 0, 255, 0, 0, 0, 0, 255]⟩] := by
  obtain ⟨pi, files, h, hf⟩ := C99_images (fun s => s ≠ "img-P-1.pnm") "img" exCsts 3 5 exMatrix exSeen
    (by decide +kernel) (by decide +kernel) (by decide +kernel) (by decide +kernel) (by decide +kernel)
    (by decide) (by decide +kernel) (by decide +kernel) (by decide +kernel)
  refine ⟨pi, files, h, ?_⟩
  have e : files = (files.map (fun f => (f.name, f.text))).map fun p => ⟨p.1, p.2⟩ := by
    rw [List.map_map]; exact (List.map_id _).symm
  rw [e, hf]
  decide +kernel

/-- One constraint on the last of 2147483647 variables. -/
example : ∃ ap, Sparse.make [⟨[⟨1, 2147483646⟩], 0, 1, 0⟩] 2147483647 = .ok ap ∧
    ∀ r, pnmRun (fun _ => true) "img" 1 2147483647 1000 ap [([.fin 0], [.fin 0])] ≠ .ok r := by
  have h := Sparse.make_eq [⟨[⟨1, 2147483646⟩], 0, 1, 0⟩] 2147483647 (by decide) (by decide)
  exact ⟨_, h, C99_large_images (fun _ => true) "img" _ 2147483647 _ [] 1 rfl 1000 h (by decide) 0
    2147483646 (by decide) (by decide) (by decide) _⟩

example : ∃ files, fileRun (fun s => s ≠ "img-pi.txt") (fun v => if v = .fin 0 then "0" else "?") "img" 2 3
    exMatrix exSeen = .ok (none, files) ∧
    files = [⟨"img-P-0.txt", "? 0 0 \n0 ? ? \n".toList.map Char.toNat⟩,
      ⟨"img-P-1.txt", "? 0 0 \n0 ? ? \n".toList.map Char.toNat⟩] := by
  obtain ⟨files, h, hf⟩ := C99_tables_partial (fun s => s ≠ "img-pi.txt") "img" exCsts 3 exMatrix exSeen
    (fun v => if v = .fin 0 then "0" else "?") (by decide +kernel) (by decide +kernel)
    (by decide +kernel) (by decide +kernel) (by decide +kernel) (by decide +kernel)
  refine ⟨files, h, ?_⟩
  have e : files = (files.map (fun f => (f.name, f.text))).map fun p => ⟨p.1, p.2⟩ := by
    rw [List.map_map]; exact (List.map_id _).symm
  rw [e, hf]
  decide +kernel

example : ∃ w, fileRun (fun _ => true) (fun _ => "?") "img" 2 3 exMatrix exSeen = .error (.ub w) :=
  C99_file_undefined _ _ _ _ _ _ _ rfl _

example : ∃ w, pnmRun (fun _ => false) "img" 2 3 1000 exMatrix exSeen = .error (.contract w) :=
  C98_cannot_open _ _ exCsts _ _ _ (by decide) rfl _ _ (by decide +kernel)

example : ∃ w, pnmRun (fun _ => true) "img" 2 3 (Params.set {} { limit := 0 }).limit exMatrix exSeen =
    .error (.ub w) :=
  C98_no_limit _ _ _ _ _ _ _ _ (by decide) (by decide) rfl

example : ∃ files, pnmRun (fun _ => true) "img" 1 2 2 (Sparse.result [⟨[⟨1, 1⟩], 0, 1, 0⟩] 2)
    [([.fin 0], [.fin 1]), ([.fin 0], [.fin 0]), ([.fin 0], [.pinf])] =
      .ok (some (image 1 2 fun r _ => if r = 0 then (255, 0, 0) else (0, 255, 0)), files) := by
  obtain ⟨files, h⟩ := C98_one_constraint (fun _ => true) "img" [⟨[⟨1, 1⟩], 0, 1, 0⟩] 2 2
    (Sparse.result [⟨[⟨1, 1⟩], 0, 1, 0⟩] 2)
    [([.fin 0], [.fin 1]), ([.fin 0], [.fin 0]), ([.fin 0], [.pinf])] rfl
    (by decide +kernel) (by decide +kernel) (by decide +kernel) (by decide +kernel) (by decide +kernel)
    (by decide) (by decide +kernel) (by decide +kernel) rfl
  refine ⟨files, h.trans ?_⟩
  congr 3
  decide +kernel

end Bx.Observer
