import Verif.Lemmas.Plotting
import Mathlib.Tactic.FieldSimp
import Mathlib.Tactic.Positivity
import Mathlib.Tactic.NormNum

/-!
# C101: the colours of `quickVisual`. C102: the grid of `graphDensityContourPlot`.
-/
set_option autoImplicit false
set_option linter.unusedSimpArgs false
namespace Verif.Props.Plotting
open Verif.Model.Plotting Verif.Spec.Plotting Verif.Lemmas.Plotting

section
variable {τ : Type} [DecidableEq τ]

omit [DecidableEq τ] in
theorem filterMap_some (ts : List τ) : (ts.map some).filterMap id = ts := by
  induction ts with
  | nil => rfl
  | cons t ts ih => simp

theorem quick_typed (ts : List τ) (h : ts ≠ []) : quickVisual (ts.map some) = .ok (.each (ts.map (colourOf (noted [] ts)))) := by
  have hne : ∀ e, colourLoop [] [] (ts.map some) ≠ .error e := by
    intro e he
    obtain ⟨_, pre, post, hp, _⟩ := (colourLoop_error _ _ _ _).mp he
    have : (none : Option τ) ∈ ts.map some := by rw [hp]; simp
    simp at this
  unfold quickVisual
  rw [if_neg (by simpa using h)]
  cases hl : colourLoop [] [] (ts.map some) with
  | error e => exact absurd hl (hne e)
  | ok out =>
    have := colourLoop_ok _ _ _ _ hl
    rw [filterMap_some] at this
    dsimp only
    rw [if_neg]
    · rw [this]; simp
    · rw [this]
      have := List.length_pos_iff.mpr h
      simp; omega

/-- If every node has a type, each node gets one colour, in the order of the nodes: the colour of a type is the entry of the palette whose number is the number of different types met before
it, counted round the palette. So nodes of the same type have the same colour. -/
theorem C101_typed (ts : List τ) (h : ts ≠ []) :
    quickVisual (ts.map some) = .ok (.each (ts.map (fun t => ['b', 'r', 'c', 'm', 'y', 'k', 'w', 'g'].getD (typesBefore ts t % 8) 'b'))) := by
  rw [quick_typed ts h]
  congr 2
  apply List.map_congr_left
  intro t ht
  unfold colourOf
  rw [idxOf_noted ts t ht]
  rfl

example : quickVisual ([3, 5, 3, 4].map some) = .ok (.each ['b', 'r', 'b', 'c']) := by rfl

theorem palette_inj : ∀ i < 8, ∀ j < 8, palette.getD i 'b' = palette.getD j 'b' → i = j := by decide

/-- If there are at most eight types, nodes have the same colour only if they have the same type. -/
theorem C101_distinct_partial (ts : List τ) (h : ts ≠ []) (h8 : ts.dedup.length ≤ 8) :
    ∃ cs, quickVisual (ts.map some) = .ok (.each cs) ∧ cs.length = ts.length ∧
      ∀ i j (hi : i < ts.length) (hj : j < ts.length), cs[i]? = cs[j]? ↔ ts[i] = ts[j] := by
  refine ⟨_, quick_typed ts h, by simp, ?_⟩
  intro i j hi hj
  rw [List.getElem?_map, List.getElem?_map, List.getElem?_eq_getElem hi, List.getElem?_eq_getElem hj]
  simp only [Option.map_some, Option.some.injEq]
  constructor
  · intro hc
    have mi : ts[i] ∈ noted [] ts := (mem_noted _ _ _).mpr (Or.inr (List.getElem_mem hi))
    have mj : ts[j] ∈ noted [] ts := (mem_noted _ _ _).mpr (Or.inr (List.getElem_mem hj))
    have li := List.idxOf_lt_length_of_mem mi
    have lj := List.idxOf_lt_length_of_mem mj
    rw [noted_length] at li lj
    unfold colourOf at hc
    have hl : palette.length = 8 := rfl
    rw [hl, Nat.mod_eq_of_lt (by omega), Nat.mod_eq_of_lt (by omega)] at hc
    have := palette_inj _ (by omega) _ (by omega) hc
    exact (List.idxOf_inj mi).mp this
  · intro e; rw [e]

example : ([3, 5, 3, 4] : List Nat) ≠ [] ∧ ([3, 5, 3, 4] : List Nat).dedup.length ≤ 8 := by decide

/-- With more than eight types there are nodes of different types with the same colour. -/
theorem C101_reused (ts : List τ) (h8 : 8 < ts.dedup.length) :
    ∃ cs, quickVisual (ts.map some) = .ok (.each cs) ∧
      ∃ i j, ∃ (hi : i < ts.length) (hj : j < ts.length), ts[i] ≠ ts[j] ∧ cs[i]? = cs[j]? ∧ cs[i]?.isSome := by
  have h : ts ≠ [] := by rintro rfl; simp at h8
  refine ⟨_, quick_typed ts h, ?_⟩
  have hl := noted_length ts
  have hn := noted_nodup ts [] List.nodup_nil
  have h0 : 0 < (noted [] ts).length := by omega
  have h8' : 8 < (noted [] ts).length := by omega
  have m0 : (noted [] ts)[0] ∈ ts := by
    have := (mem_noted ts [] _).mp (List.getElem_mem h0)
    simpa using this
  have m8 : (noted [] ts)[8] ∈ ts := by
    have := (mem_noted ts [] _).mp (List.getElem_mem h8')
    simpa using this
  obtain ⟨i, hi, ei⟩ := List.getElem_of_mem m0
  obtain ⟨j, hj, ej⟩ := List.getElem_of_mem m8
  refine ⟨i, j, hi, hj, ?_, ?_, ?_⟩
  · rw [ei, ej]
    intro e
    have := (hn.getElem_inj_iff).mp e
    omega
  · rw [List.getElem?_map, List.getElem?_map, List.getElem?_eq_getElem hi, List.getElem?_eq_getElem hj, ei, ej]
    simp only [Option.map_some, Option.some.injEq]
    unfold colourOf
    rw [hn.idxOf_getElem 0 h0, hn.idxOf_getElem 8 h8']
    rfl
  · rw [List.getElem?_map, List.getElem?_eq_getElem hi]; rfl

example : 8 < (List.range 9).dedup.length := by decide

/-- If no node has a type, all nodes are blue. -/
theorem C101_plain (n : Nat) : quickVisual (List.replicate (n + 1) (none : Option τ)) = .ok (.one 'b') := by
  have hl : ∀ m, colourLoop ([] : List τ) [] (List.replicate m none) = .ok [] := by
    intro m
    induction m with
    | zero => rfl
    | succ m ih => rw [List.replicate_succ, colourLoop, if_neg (by simp), ih]
  unfold quickVisual
  rw [if_neg (by simp), hl]
  rfl

/-- A graph without nodes cannot be drawn. -/
theorem C101_empty : quickVisual ([] : List (Option τ)) = .error .zeroDivision := rfl

/-- A graph is refused for nodes without a type exactly if a node without a type comes after two nodes with one. -/
theorem C101_refused (nodes : List (Option τ)) :
    quickVisual nodes = .error .untyped ↔ ∃ pre post, nodes = pre ++ none :: post ∧ 2 ≤ (pre.filter Option.isSome).length := by
  have hf : ∀ pre : List (Option τ), (pre.filterMap id).length = (pre.filter Option.isSome).length := by
    intro pre
    induction pre with
    | nil => rfl
    | cons a pre ih =>
      cases a with
      | none => rw [List.filterMap_cons_none rfl, List.filter_cons_of_neg (by simp)]; exact ih
      | some t => rw [List.filterMap_cons_some (f := id) (a := some t) (b := t) rfl, List.filter_cons_of_pos (by simp), List.length_cons, List.length_cons, ih]
  have key : colourLoop [] [] nodes = .error .untyped ↔ ∃ pre post, nodes = pre ++ none :: post ∧ 2 ≤ (pre.filter Option.isSome).length := by
    rw [colourLoop_error]
    simp only [hf, true_and, List.length_nil, Nat.zero_add]
  rw [← key]
  unfold quickVisual
  split
  · rename_i h
    have : nodes = [] := by simpa using h
    subst this
    simp [colourLoop]
  · cases hl : colourLoop [] [] nodes with
    | error e => simp
    | ok out => dsimp only; split <;> simp

example : quickVisual [some 1, some 2, none] = .error .untyped := by rfl

/-- The documented refusal does not always come: a graph in which a node without a type comes after at most one with a type, and some node has a type, is drawn with a list of colours that is
shorter than the list of nodes. -/
theorem C101_short (nodes : List (Option τ)) (hn : none ∈ nodes) (hs : ∃ t, some t ∈ nodes)
    (h : quickVisual nodes ≠ .error .untyped) : ∃ cs, quickVisual nodes = .ok (.each cs) ∧ 1 ≤ cs.length ∧ cs.length < nodes.length := by
  have hlt : ∀ l : List (Option τ), (l.filterMap id).length ≤ l.length := fun l => List.length_filterMap_le _ _
  have hlen : (nodes.filterMap id).length < nodes.length := by
    obtain ⟨a, b, rfl⟩ := List.append_of_mem hn
    have := hlt a; have := hlt b
    rw [List.filterMap_append, List.filterMap_cons_none rfl, List.length_append, List.length_append, List.length_cons]
    omega
  have hpos : 1 ≤ (nodes.filterMap id).length := by
    obtain ⟨t, ht⟩ := hs
    apply List.length_pos_of_mem (a := t)
    rw [List.mem_filterMap]
    exact ⟨some t, ht, rfl⟩
  have hne : nodes.length ≠ 0 := by omega
  unfold quickVisual at h ⊢
  rw [if_neg hne] at h ⊢
  cases hl : colourLoop [] [] nodes with
  | error e =>
    rw [hl] at h
    have := ((colourLoop_error _ _ _ _).mp hl).1
    exact absurd (by rw [this]) h
  | ok out =>
    have ho := colourLoop_ok _ _ _ _ hl
    have hol : out.length = (nodes.filterMap id).length := by rw [ho]; simp
    dsimp only
    rw [if_neg (by omega)]
    exact ⟨out, rfl, by omega, by omega⟩

example : quickVisual [none, some 1, none, some 2] = .ok (.each ['b', 'r']) := by rfl

end

theorem stretch_eq (n : Nat) (s : Rat) (ps : List (Rat × Rat)) : ps.map (scaleBy (((n : Rat) - 1) / s)) = ps.map (stretch n s) := by
  apply List.map_congr_left
  intro p _
  unfold scaleBy stretch
  rw [mul_div_assoc, mul_div_assoc]

theorem density_dict (n : Nat) (s : Rat) (hs : s ≠ 0) (ps : List (Rat × Rat)) (g : Grid) (h : fill n (fun _ _ => 0) (ps.map (stretch n s)) = .ok g) :
    density true n s (.dict ps) = .ok (g, ps.map (stretch n s)) := by
  unfold density
  simp only [Bool.not_true, Bool.false_eq_true, if_false, if_neg hs, stretch_eq, h]

theorem stretch_le {n : Nat} {s x b : Rat} (hn : 1 ≤ n) (hs : 0 < s) (h : x ≤ b * s) : x * ((n : Rat) - 1) / s ≤ b * ((n : Rat) - 1) := by
  have hn' : (0 : Rat) ≤ (n : Rat) - 1 := by have : (1 : Rat) ≤ n := by exact_mod_cast hn
                                             linarith
  rw [div_le_iff₀ hs]
  nlinarith [mul_le_mul_of_nonneg_right h hn']

theorem stretch_ge {n : Nat} {s x b : Rat} (hn : 1 ≤ n) (hs : 0 < s) (h : b * s ≤ x) : b * ((n : Rat) - 1) ≤ x * ((n : Rat) - 1) / s := by
  have hn' : (0 : Rat) ≤ (n : Rat) - 1 := by have : (1 : Rat) ≤ n := by exact_mod_cast hn
                                             linarith
  rw [le_div_iff₀ hs]
  nlinarith [mul_le_mul_of_nonneg_right h hn']

theorem stretch_square {n : Nat} {s a b : Rat} (hn : 1 ≤ n) (hs : 0 < s) {p : Rat × Rat} (h : InSquare (a * s) (b * s) p) :
    InSquare (a * ((n : Rat) - 1)) (b * ((n : Rat) - 1)) (stretch n s p) :=
  ⟨stretch_ge hn hs h.1, stretch_le hn hs h.2.1, stretch_ge hn hs h.2.2.1, stretch_le hn hs h.2.2.2⟩

theorem cell_square {a b : Int} {p : Rat × Rat} {c : Int × Int} (h : InCell p c) (hp : InSquare a b p) :
    a ≤ c.1 ∧ c.1 ≤ b ∧ a ≤ c.2 ∧ c.2 ≤ b :=
  ⟨nearest_ge h.1 hp.1, nearest_le h.1 hp.2.1, nearest_ge h.2 hp.2.2.1, nearest_le h.2 hp.2.2.2⟩

theorem mem_cells {ps : List (Rat × Rat)} {c : Int × Int} (h : c ∈ ps.map (fun p => (npRound p.1, npRound p.2))) : ∃ p ∈ ps, InCell p c := by
  obtain ⟨p, hp, rfl⟩ := List.mem_map.mp h
  exact ⟨p, hp, npRound_nearest _, npRound_nearest _⟩

/-- Every position has exactly one cell. -/
theorem C102_cell (p : Rat × Rat) : ∃ c, InCell p c ∧ ∀ c', InCell p c' → c' = c :=
  ⟨(npRound p.1, npRound p.2), ⟨npRound_nearest _, npRound_nearest _⟩, fun _ h => Prod.ext (nearest_unique h.1 (npRound_nearest _)) (nearest_unique h.2 (npRound_nearest _))⟩

/-- A layout with coordinates between 0 and the scale factor is counted as documented: no error, each cell of the grid holds the number of nodes that fall in it and no other cell holds
anything, all nodes are counted, and the overlay is drawn where the nodes are counted. What is missing is the rest of the documented square, which has negative coordinates: see `C102_square`
and `C102_wrapped`. -/
theorem C102_quadrant_partial (n : Nat) (s : Rat) (ps : List (Rat × Rat)) (hn : 1 ≤ n) (hs : 0 < s) (hp : ∀ p ∈ ps, InSquare 0 s p) :
    ∃ g cells, density true n s (.dict ps) = .ok (g, ps.map (stretch n s)) ∧ List.Forall₂ InCell (ps.map (stretch n s)) cells ∧
      (∀ x y : Nat, g y x = cells.count ((x : Int), (y : Int))) ∧
      ∑ y ∈ Finset.range n, ∑ x ∈ Finset.range n, g y x = ps.length := by
  have hb : ∀ c ∈ (ps.map (stretch n s)).map (fun p => (npRound p.1, npRound p.2)), (0 : Int) ≤ c.1 ∧ c.1 ≤ (n : Int) - 1 ∧ 0 ≤ c.2 ∧ c.2 ≤ (n : Int) - 1 := by
    intro c hc
    obtain ⟨q, hq, hqc⟩ := mem_cells hc
    obtain ⟨p, hpm, rfl⟩ := List.mem_map.mp hq
    have := stretch_square (a := 0) (b := 1) hn hs (p := p) (by simpa using hp p hpm)
    refine cell_square hqc ?_
    simpa using this
  have hf := fill_ok (n := n) (ps.map (stretch n s)) (fun _ _ => 0) _ (exists_cells _) (fun c hc => by
    obtain ⟨a, b, d, e⟩ := hb c hc; omega)
  refine ⟨_, _, density_dict n s (ne_of_gt hs) ps _ hf, exists_cells _, ?_, ?_⟩
  · intro x y
    rw [Nat.zero_add, List.count_eq_countP]
    apply List.countP_congr
    intro c hc
    obtain ⟨a, b, d, e⟩ := hb c hc
    rw [Int.emod_eq_of_lt a (by omega), Int.emod_eq_of_lt d (by omega)]
    simp only [decide_eq_true_eq, beq_iff_eq, Prod.ext_iff]
    omega
  · simp only [Nat.zero_add]
    rw [sum_cells (by omega)]
    simp

example : ∀ p ∈ [((0 : Rat), (1 : Rat)), (1 / 3, 1 / 2)], InSquare 0 1 p := by
  intro p hp
  simp only [List.mem_cons, List.not_mem_nil, or_false] at hp
  rcases hp with rfl | rfl <;> unfold InSquare <;> norm_num

/-- A layout in the documented square, centred at the origin: no error, and all nodes are counted, but the cell a node is counted in is taken modulo the size of the grid. -/
theorem C102_square (n : Nat) (s : Rat) (ps : List (Rat × Rat)) (hn : 1 ≤ n) (hs : 0 < s) (hp : ∀ p ∈ ps, InSquare (-s) s p) :
    ∃ g cells, density true n s (.dict ps) = .ok (g, ps.map (stretch n s)) ∧ List.Forall₂ InCell (ps.map (stretch n s)) cells ∧
      (∀ x y : Nat, x < n → y < n → g y x = cells.countP (fun c => c.1 % (n : Int) = x ∧ c.2 % (n : Int) = y)) ∧
      ∑ y ∈ Finset.range n, ∑ x ∈ Finset.range n, g y x = ps.length := by
  have hb : ∀ c ∈ (ps.map (stretch n s)).map (fun p => (npRound p.1, npRound p.2)), -((n : Int) - 1) ≤ c.1 ∧ c.1 ≤ (n : Int) - 1 ∧ -((n : Int) - 1) ≤ c.2 ∧ c.2 ≤ (n : Int) - 1 := by
    intro c hc
    obtain ⟨q, hq, hqc⟩ := mem_cells hc
    obtain ⟨p, hpm, rfl⟩ := List.mem_map.mp hq
    have := stretch_square (a := -1) (b := 1) hn hs (p := p) (by simpa using hp p hpm)
    refine cell_square hqc ?_
    simpa using this
  have hf := fill_ok (n := n) (ps.map (stretch n s)) (fun _ _ => 0) _ (exists_cells _) (fun c hc => by
    obtain ⟨a, b, d, e⟩ := hb c hc; omega)
  refine ⟨_, _, density_dict n s (ne_of_gt hs) ps _ hf, exists_cells _, ?_, ?_⟩
  · intro x y hx hy
    rw [Nat.zero_add]
    apply List.countP_congr
    intro c hc
    have h1 := Int.emod_nonneg c.1 (show (n : Int) ≠ 0 by omega)
    have h2 := Int.emod_nonneg c.2 (show (n : Int) ≠ 0 by omega)
    simp only [decide_eq_true_eq]
    omega
  · simp only [Nat.zero_add]
    rw [sum_cells (by omega)]
    simp

example : ∀ p ∈ [((-1 : Rat), (1 : Rat)), (1 / 3, -1 / 2)], InSquare (-1) 1 p := by
  intro p hp
  simp only [List.mem_cons, List.not_mem_nil, or_false] at hp
  rcases hp with rfl | rfl <;> unfold InSquare <;> norm_num

/-- So nodes at opposite ends of the plane are counted as if they were in the same cell: whatever the size of the grid and the scale factor, one node at the left end of the middle row and one
a cell to the right of the middle make two nodes in the cell to the right of the middle, although the first is drawn as many cells further to the left as the grid has. -/
theorem C102_wrapped (n : Nat) (s : Rat) (hn : 2 ≤ n) (hs : 0 < s) :
    InSquare (-s) s (-s, 0) ∧ InSquare (-s) s (s / ((n : Rat) - 1), 0) ∧
    ∃ g, density true n s (.dict [(-s, 0), (s / ((n : Rat) - 1), 0)]) = .ok (g, [(-((n : Rat) - 1), 0), (1, 0)]) ∧ g 0 1 = 2 := by
  have hn1 : (1 : Rat) ≤ (n : Rat) - 1 := by
    have : (2 : Rat) ≤ n := by exact_mod_cast hn
    linarith
  have hle : s / ((n : Rat) - 1) ≤ s := by
    rw [div_le_iff₀ (by linarith)]
    nlinarith
  have hpos : 0 < s / ((n : Rat) - 1) := div_pos hs (by linarith)
  have hA : InSquare (-s) s (-s, 0) := ⟨le_refl _, by show -s ≤ s; linarith, by show -s ≤ 0; linarith, hs.le⟩
  have hB : InSquare (-s) s (s / ((n : Rat) - 1), 0) := ⟨by show -s ≤ s / _; linarith, hle, by show -s ≤ 0; linarith, hs.le⟩
  refine ⟨hA, hB, ?_⟩
  have e1 : stretch n s (-s, 0) = (-((n : Rat) - 1), 0) := by
    unfold stretch
    have : s ≠ 0 := ne_of_gt hs
    ext
    · simp only []; field_simp
    · simp
  have e2 : stretch n s (s / ((n : Rat) - 1), 0) = (1, 0) := by
    unfold stretch
    have : s ≠ 0 := ne_of_gt hs
    have : (n : Rat) - 1 ≠ 0 := by linarith
    ext
    · simp only []; field_simp
    · simp
  obtain ⟨g, cells, hg, hc, hcount, _⟩ := C102_square n s [(-s, 0), (s / ((n : Rat) - 1), 0)] (by omega) hs (by
    intro p hp
    simp only [List.mem_cons, List.not_mem_nil, or_false] at hp
    rcases hp with rfl | rfl
    · exact hA
    · exact hB)
  simp only [List.map_cons, List.map_nil, e1, e2] at hg hc
  refine ⟨g, hg, ?_⟩
  rw [hcount 1 0 (by omega) (by omega)]
  cases hc with
  | @cons _ c1 _ _ h1 hc =>
    cases hc with
    | @cons _ c2 _ _ h2 hc =>
      cases hc
      have z : Nearest 0 0 := ⟨by norm_num, fun _ => rfl⟩
      have o : Nearest 1 1 := ⟨by norm_num, by norm_num⟩
      have m : Nearest (-((n : Rat) - 1)) (-((n : Int) - 1)) := by
        constructor
        · push_cast; norm_num
        · push_cast; norm_num
      have d1 : c1 = (-((n : Int) - 1), 0) := Prod.ext (nearest_unique h1.1 m) (nearest_unique h1.2 z)
      have d2 : c2 = (1, 0) := Prod.ext (nearest_unique h2.1 o) (nearest_unique h2.2 z)
      subst d1 d2
      have r1 : (-((n : Int) - 1)) % (n : Int) = 1 := by
        rw [← Int.add_emod_right, Int.emod_eq_of_lt (by omega) (by omega)]; omega
      have r2 : (1 : Int) % (n : Int) = 1 := Int.emod_eq_of_lt (by omega) (by omega)
      simp [r1, r2]

/-- The layout networkx makes when none is given is in a square centred at the origin too, with the half side `axisSamples - 1`: no error, all nodes are counted, modulo the size of the grid. -/
theorem C102_computed (n : Nat) (s : Rat) (ps : List (Rat × Rat)) (hn : 1 ≤ n) (hp : ∀ p ∈ ps, InSquare (-((n : Rat) - 1)) ((n : Rat) - 1) p) :
    ∃ g cells, density true n s (.computed ps) = .ok (g, ps) ∧ List.Forall₂ InCell ps cells ∧
      (∀ x y : Nat, x < n → y < n → g y x = cells.countP (fun c => c.1 % (n : Int) = x ∧ c.2 % (n : Int) = y)) ∧
      ∑ y ∈ Finset.range n, ∑ x ∈ Finset.range n, g y x = ps.length := by
  have hb : ∀ c ∈ ps.map (fun p => (npRound p.1, npRound p.2)), -((n : Int) - 1) ≤ c.1 ∧ c.1 ≤ (n : Int) - 1 ∧ -((n : Int) - 1) ≤ c.2 ∧ c.2 ≤ (n : Int) - 1 := by
    intro c hc
    obtain ⟨p, hpm, hqc⟩ := mem_cells hc
    refine cell_square hqc ?_
    simpa using hp p hpm
  have hf := fill_ok (n := n) ps (fun _ _ => 0) _ (exists_cells _) (fun c hc => by
    obtain ⟨a, b, d, e⟩ := hb c hc; omega)
  refine ⟨fun y x => 0 + (ps.map (fun p => (npRound p.1, npRound p.2))).countP (fun c : Int × Int => (c.1 % (n : Int)).toNat = x ∧ (c.2 % (n : Int)).toNat = y), _, ?_, exists_cells _, ?_, ?_⟩
  · unfold density
    simp only [Bool.not_true, Bool.false_eq_true, if_false, hf]
  · intro x y hx hy
    dsimp only
    rw [Nat.zero_add]
    apply List.countP_congr
    intro c hc
    have h1 := Int.emod_nonneg c.1 (show (n : Int) ≠ 0 by omega)
    have h2 := Int.emod_nonneg c.2 (show (n : Int) ≠ 0 by omega)
    simp only [decide_eq_true_eq]
    omega
  · simp only [Nat.zero_add]
    rw [sum_cells (by omega)]
    simp

example : ∀ p ∈ [((-99 : Rat), (7 : Rat)), (3 / 2, -1 / 2)], InSquare (-(((100 : Nat) : Rat) - 1)) (((100 : Nat) : Rat) - 1) p := by
  intro p hp
  simp only [List.mem_cons, List.not_mem_nil, or_false] at hp
  rcases hp with rfl | rfl <;> unfold InSquare <;> norm_num

/-- A layout is refused for its positions exactly if a node falls in a cell further from the origin than the grid reaches: left of or below `-n`, or right of or above `n - 1`. -/
theorem C102_outside (n : Nat) (s : Rat) (ps : List (Rat × Rat)) (hs : s ≠ 0) :
    density true n s (.dict ps) = .error .index ↔
      ∃ p ∈ ps, ∃ c, InCell (stretch n s p) c ∧ (c.1 < -(n : Int) ∨ (n : Int) ≤ c.1 ∨ c.2 < -(n : Int) ∨ (n : Int) ≤ c.2) := by
  have key : density true n s (.dict ps) = .error .index ↔ ∃ e, fill n (fun _ _ => 0) (ps.map (stretch n s)) = .error e := by
    unfold density
    simp only [Bool.not_true, Bool.false_eq_true, if_false, if_neg hs, stretch_eq]
    cases hf : fill n (fun _ _ => 0) (ps.map (stretch n s)) with
    | error e =>
      have := fill_err_index _ _ _ hf
      subst this
      simp
    | ok g => simp
  rw [key, fill_error]
  constructor
  · rintro ⟨q, hq, h⟩
    obtain ⟨p, hp, rfl⟩ := List.mem_map.mp hq
    refine ⟨p, hp, (npRound _, npRound _), ⟨npRound_nearest _, npRound_nearest _⟩, ?_⟩
    show npRound _ < _ ∨ _ ≤ npRound _ ∨ npRound _ < _ ∨ _ ≤ npRound _
    rcases h with (h | h) | (h | h)
    · exact Or.inl h
    · exact Or.inr (Or.inl h)
    · exact Or.inr (Or.inr (Or.inl h))
    · exact Or.inr (Or.inr (Or.inr h))
  · rintro ⟨p, hp, c, hc, h⟩
    refine ⟨stretch n s p, List.mem_map.mpr ⟨p, hp, rfl⟩, ?_⟩
    rw [npRound_eq hc.1, npRound_eq hc.2]
    tauto

example : (1 : Rat) ≠ 0 ∧ ∃ p ∈ [((0 : Rat), (2 : Rat))], ∃ c, InCell (stretch 100 1 p) c ∧ (c.1 < -((100 : Nat) : Int) ∨ ((100 : Nat) : Int) ≤ c.1 ∨ c.2 < -((100 : Nat) : Int) ∨ ((100 : Nat) : Int) ≤ c.2) := by
  refine ⟨by norm_num, (0, 2), by simp, (0, 198), ⟨⟨?_, ?_⟩, ⟨?_, ?_⟩⟩, ?_⟩ <;> (simp [stretch]; try norm_num)

/-- What is refused before any position is looked at: something that is no graph, a layout that is neither missing nor a dictionary, and the scale factor 0 with a layout. -/
theorem C102_args (n : Nat) (s : Rat) (ps : List (Rat × Rat)) (layout : LayoutArg) :
    density false n s layout = .error .type ∧ density true n s .other = .error .type ∧ density true n 0 (.dict ps) = .error .zeroDivision :=
  ⟨rfl, rfl, by unfold density; simp⟩

end Verif.Props.Plotting
