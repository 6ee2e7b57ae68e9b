import Verif.Model.Glimpse
import Mathlib.Tactic.Ring
import Mathlib.Data.List.Forall2

/-! # C72: the table of `glimpse` fits the terminal -/
set_option autoImplicit false
set_option linter.unusedSimpArgs false
namespace Verif.Props.Glimpse
open Verif.Py Verif.Model.Glimpse

/-! ## Specification -/

/-- A cell of width `w` for a value and its rank: the rank in two characters, then the value, right-aligned, or its beginning and a full stop if it is too
long. -/
structure IsCell (w : Nat) (v : Str) (r : Int) (x : Str) : Prop where
  width : x.length = w
  fits : v.length + 2 ≤ w → ∃ k, x = (showInt r ++ List.replicate (2 - (showInt r).length) ' ') ++ List.replicate k ' ' ++ v
  cut : w < v.length + 2 → x = (showInt r ++ List.replicate (2 - (showInt r).length) ' ') ++ v.take (w - 3) ++ ['.']

/-- The `i`-th value of a column; missing ones are shown as `NA` with rank -1. -/
def valueAt (c : Column) (i : Nat) : Str × Int := (c.2[i]?).getD ("NA".toList, -1)

/-- What is assumed of the collection: its texts have no line breaks, the class and the number of records are not too long, the ranks have at most two
characters, and every title fits into its column. -/
structure Fits (I : Info) (values : List Column) (width : Nat) : Prop where
  some_column : values ≠ []
  columns : values.length * 5 ≤ width
  titles : ∀ c ∈ values, c.1.length + 2 ≤ width / values.length
  ranks : ∀ c ∈ values, ∀ p ∈ c.2, (showInt p.2).length ≤ 2
  cls : I.cls.length + I.now.length + 19 ≤ width
  size : (showNat I.size).length + 46 ≤ width
  noBreak : '\n' ∉ I.cls ∧ '\n' ∉ I.now ∧ '\n' ∉ I.name
  noBreakValues : ∀ c ∈ values, '\n' ∉ c.1 ∧ ∀ p ∈ c.2, '\n' ∉ p.1

/-! ## Helpers -/

theorem padRight_length (f : Char) (w : Nat) (s : Str) (h : s.length ≤ w) : (padRight f w s).length = w := by
  simp [padRight]; omega

theorem padLeft_length (f : Char) (w : Nat) (s : Str) (h : s.length ≤ w) : (padLeft f w s).length = w := by
  simp [padLeft]; omega

theorem center_length (f : Char) (w : Nat) (s : Str) (h : s.length ≤ w) : (center f w s).length = w := by
  simp [center]; omega

theorem showInt_noBreak (r : Int) : '\n' ∉ showInt r := by
  have hd : ∀ n : Nat, '\n' ∉ showNat n := by
    intro n h
    have := showNat_digits n _ h
    exact absurd this (by decide)
  unfold showInt
  cases r with
  | ofNat n => exact hd n
  | negSucc n =>
    intro h
    rcases List.mem_cons.1 h with h | h
    · exact absurd h (by decide)
    · exact hd _ h

theorem padRight_noBreak (f : Char) (w : Nat) (s : Str) (hf : f ≠ '\n') (hs : '\n' ∉ s) : '\n' ∉ padRight f w s := by
  intro h
  rcases List.mem_append.1 h with h | h
  · exact hs h
  · exact hf (List.eq_of_mem_replicate h).symm

theorem center_noBreak (f : Char) (w : Nat) (s : Str) (hf : f ≠ '\n') (hs : '\n' ∉ s) : '\n' ∉ center f w s := by
  intro h
  rcases List.mem_append.1 h with h | h
  · rcases List.mem_append.1 h with h | h
    · exact hf (List.eq_of_mem_replicate h).symm
    · exact hs h
  · exact hf (List.eq_of_mem_replicate h).symm

theorem sliceTo_nonneg {α : Type} (n : Nat) (s : List α) : sliceTo (n : Int) s = s.take n := by
  unfold sliceTo; rw [if_pos (by omega)]; rfl

theorem prepEntry_cell (w : Nat) (hw : 3 ≤ w) (v : Str) (r : Int) (hr : (showInt r).length ≤ 2) : IsCell w v r (prepEntry w v r) := by
  have hp : (padRight ' ' 2 (showInt r)).length = 2 := padRight_length _ _ _ hr
  refine ⟨?_, ?_, ?_⟩
  · unfold prepEntry
    dsimp only
    rw [List.length_append, hp]
    split
    · rw [padLeft_length _ _ _ (by omega)]; omega
    · rename_i h
      rw [show (w : Int) - 3 = ((w - 3 : Nat) : Int) by omega, sliceTo_nonneg]
      simp; omega
  · intro h
    refine ⟨w - 2 - v.length, ?_⟩
    unfold prepEntry
    dsimp only
    rw [if_pos h]
    simp only [padLeft, padRight, List.append_assoc]
  · intro h
    unfold prepEntry
    dsimp only
    rw [if_neg (by omega), show (w : Int) - 3 = ((w - 3 : Nat) : Int) by omega, sliceTo_nonneg]
    simp [padRight]

theorem prepEntry_noBreak (w : Nat) (v : Str) (r : Int) (hv : '\n' ∉ v) : '\n' ∉ prepEntry w v r := by
  unfold prepEntry
  dsimp only
  intro h
  rcases List.mem_append.1 h with h | h
  · exact padRight_noBreak _ _ _ (by decide) (showInt_noBreak r) h
  · split at h
    · rcases List.mem_append.1 h with h | h
      · exact absurd (List.eq_of_mem_replicate h) (by decide)
      · exact hv h
    · rcases List.mem_append.1 h with h | h
      · unfold sliceTo at h
        split at h
        · exact hv (List.mem_of_mem_take h)
        · exact hv (List.mem_of_mem_take h)
      · simp at h

/-- The widths of the columns. -/
def widths (cWidth : Nat) : Int → List Column → List Nat
  | _, [] => []
  | rem, _ :: cs => (headingWidth cWidth rem).1 :: widths cWidth (headingWidth cWidth rem).2 cs

theorem widths_length (cW : Nat) (rem : Int) (cs : List Column) : (widths cW rem cs).length = cs.length := by
  induction cs generalizing rem with
  | nil => rfl
  | cons c cs ih => simp [widths, ih]

theorem widths_ge (cW : Nat) (rem : Int) (cs : List Column) : ∀ w ∈ widths cW rem cs, cW - 1 ≤ w := by
  induction cs generalizing rem with
  | nil => intro w h; simp [widths] at h
  | cons c cs ih =>
    intro w h
    rcases List.mem_cons.1 h with rfl | h
    · unfold headingWidth
      split
      · simp; omega
      · split <;> simp
    · exact ih _ w h

theorem widths_sum (cW : Nat) (hW : 1 ≤ cW) (rem : Int) (cs : List Column) (h1 : -1 ≤ rem) (h2 : rem ≤ cs.length) (h3 : rem = -1 → cs ≠ []) :
    ((widths cW rem cs).sum : Int) = cs.length * cW + rem := by
  induction cs generalizing rem with
  | nil =>
    have : rem = 0 := by
      rcases Int.lt_or_le rem 0 with h | h
      · exact absurd rfl (h3 (by omega))
      · simp at h2; omega
    subst this
    simp [widths]
  | cons c cs ih =>
    have hlen : ((c :: cs).length : Int) = (cs.length : Int) + 1 := by simp
    rw [widths, List.sum_cons]
    unfold headingWidth
    split
    · have := ih (rem - 1) (by omega) (by rw [hlen] at h2; omega) (by omega)
      push_cast
      rw [this, hlen]; ring
    · split
      · have := ih (rem + 1) (by omega) (by omega) (by omega)
        push_cast
        rw [this]
        rw [Nat.cast_sub hW, hlen]
        push_cast; ring
      · have h0 : rem = 0 := by omega
        subst h0
        have := ih 0 (by omega) (by omega) (by omega)
        push_cast
        rw [this, hlen]; ring

/-- All cells, column by column. -/
def allCells (height cW : Nat) (rem : Int) (cs : List Column) : List (List Str) := List.zipWith (cells height) (widths cW rem cs) cs

theorem cells_length (height w : Nat) (c : Column) : (cells height w c).length = height + 1 := by
  unfold cells
  dsimp only
  split
  · simp; omega
  · simp; omega

theorem cells_zero (height w : Nat) (c : Column) : (cells height w c)[0]? = some (center '-' w c.1) := by unfold cells; rfl

theorem cells_succ (height w : Nat) (c : Column) (ht : c.1.length ≤ w) (i : Nat) (hi : i < height) :
    (cells height w c)[i + 1]? = some (prepEntry w (valueAt c i).1 (valueAt c i).2) := by
  unfold cells valueAt
  dsimp only
  rw [center_length _ _ _ ht, List.getElem?_cons_succ, List.getElem?_map, List.getElem?_take_of_lt hi]
  split
  · rename_i h
    by_cases hc : i < c.2.length
    · rw [List.getElem?_append_left hc, List.getElem?_eq_getElem hc]; rfl
    · rw [List.getElem?_append_right (by omega), List.getElem?_replicate, if_pos (by omega), List.getElem?_eq_none (by omega)]
      rfl
  · rw [List.getElem?_eq_getElem (by omega)]; rfl

theorem addColumns_spec (height cW : Nat) (rem : Int) (ls : List (List Str)) (cs : List Column) (hl : ls.length = height + 1) :
    (addColumns height cW rem ls cs).length = height + 1 ∧
    ∀ i, i < height + 1 → (addColumns height cW rem ls cs)[i]? = some ((ls[i]?).getD [] ++ (allCells height cW rem cs).map (fun col => (col[i]?).getD [])) := by
  induction cs generalizing rem ls with
  | nil =>
    refine ⟨hl, fun i hi => ?_⟩
    rw [addColumns, List.getElem?_eq_getElem (by omega)]
    simp [allCells, widths]
  | cons c cs ih =>
    have hc := cells_length height (headingWidth cW rem).1 c
    have hz : (List.zipWith (fun l x => l ++ [x]) ls (cells height (headingWidth cW rem).1 c)).length = height + 1 := by
      rw [List.length_zipWith, hl, hc]; simp
    obtain ⟨h1, h2⟩ := ih (headingWidth cW rem).2 _ hz
    refine ⟨by rw [addColumns]; exact h1, fun i hi => ?_⟩
    rw [addColumns, h2 i hi]
    congr 1
    have e1 : ls[i]? = some ls[i] := List.getElem?_eq_getElem (by omega)
    have e2 : (cells height (headingWidth cW rem).1 c)[i]? = some (cells height (headingWidth cW rem).1 c)[i] := List.getElem?_eq_getElem (by omega)
    rw [List.getElem?_zipWith, e1, e2]
    simp [allCells, widths, e2]

/-- The lines of the compact table. -/
def tableLines (height cW : Nat) (rem : Int) (cs : List Column) : List Str :=
  firstRow ((allCells height cW rem cs).map (fun col => (col[0]?).getD [])) ::
    (List.range height).map (fun i => otherRow ((allCells height cW rem cs).map (fun col => (col[i + 1]?).getD [])))

theorem makeTable_compact (values : List Column) (height width : Nat) :
    makeTable values height width true =
      some (Str.join ['\n'] (tableLines height (width / values.length - 1) (((width % values.length : Nat) : Int) - 1) values)) := by
  unfold makeTable
  rw [if_pos rfl, if_neg (by omega)]
  obtain ⟨h1, h2⟩ := addColumns_spec height (width / values.length - 1) (((width % values.length : Nat) : Int) - 1) (List.replicate (height + 1) []) values (by simp)
  rw [show ((height : Int)).toNat = height from rfl]
  cases hx : addColumns height (width / values.length - 1) (((width % values.length : Nat) : Int) - 1) (List.replicate (height + 1) []) values with
  | nil => rw [hx] at h1; simp at h1
  | cons l0 ls =>
    dsimp only
    rw [hx] at h1 h2
    have h0 := h2 0 (by omega)
    simp [List.getElem?_replicate] at h0
    unfold tableLines
    rw [h0]
    congr 3
    apply List.ext_getElem?
    intro i
    by_cases hi : i < height
    · have := h2 (i + 1) (by omega)
      rw [List.getElem?_cons_succ] at this
      rw [List.getElem?_map, this]
      simp [List.getElem?_replicate, hi]
    · have hl : ls.length = height := by simpa using h1
      rw [List.getElem?_eq_none (by simp; omega), List.getElem?_eq_none (by simp; omega)]

theorem join_length (sep : Str) (l : List Str) (h : l ≠ []) : (Str.join sep l).length + sep.length = (l.map List.length).sum + l.length * sep.length := by
  induction l with
  | nil => exact absurd rfl h
  | cons a l ih =>
    cases l with
    | nil => simp [Str.join]
    | cons b l =>
      have := ih (by simp)
      rw [Str.join]
      simp only [List.length_append, List.map_cons, List.sum_cons, List.length_cons] at this ⊢
      rw [Nat.succ_mul, Nat.succ_mul]
      rw [Nat.succ_mul] at this
      omega

theorem firstRow_length (l : List Str) (h : l ≠ []) : (firstRow l).length = (l.map List.length).sum + l.length + 1 := by
  have := join_length ['+'] l h
  unfold firstRow
  simp at this ⊢
  omega

theorem otherRow_length (l : List Str) : (otherRow l).length = (l.map List.length).sum + l.length + 1 := by
  have : (l.flatMap fun x => '|' :: x).length = (l.map List.length).sum + l.length := by
    induction l with
    | nil => rfl
    | cons a l ih => simp [List.flatMap_cons, ih]; omega
  unfold otherRow
  simp [this]

theorem otherRow_eq (l : List Str) (h : l ≠ []) : otherRow l = ['|'] ++ ['|'].intercalate l ++ ['|'] := by
  unfold otherRow
  congr 1
  induction l with
  | nil => exact absurd rfl h
  | cons a l ih =>
    cases l with
    | nil => simp [List.intercalate]
    | cons b l =>
      rw [List.flatMap_cons, ih (by simp)]
      simp [List.intercalate, List.intersperse]

theorem join_noBreak (sep : Str) (l : List Str) (hs : '\n' ∉ sep) (h : ∀ x ∈ l, '\n' ∉ x) : '\n' ∉ Str.join sep l := by
  induction l with
  | nil => simp [Str.join]
  | cons a l ih =>
    cases l with
    | nil => exact h a (by simp)
    | cons b l =>
      rw [Str.join]
      have := ih fun x hx => h x (List.mem_cons_of_mem _ hx)
      simp only [List.mem_append, not_or]
      exact ⟨⟨h a (by simp), hs⟩, this⟩

/-- The cells of one line, when everything fits: one for each column, of its width and without line breaks. -/
theorem line_cells (I : Info) (values : List Column) (width : Nat) (hF : Fits I values width) (height : Nat) (i : Nat) (hi : i < height + 1) :
    let cs := (allCells height (width / values.length - 1) (((width % values.length : Nat) : Int) - 1) values).map (fun col => (col[i]?).getD [])
    cs.length = values.length ∧ (cs.map List.length).sum + values.length + 1 = width ∧ (∀ x ∈ cs, '\n' ∉ x) ∧
    (∀ k, i = k + 1 → List.Forall₂ (fun (c : Column) x => ∃ w, IsCell w (valueAt c k).1 (valueAt c k).2 x) values cs) := by
  intro cs
  have hn : 0 < values.length := List.length_pos_of_ne_nil hF.some_column
  have hq : 5 ≤ width / values.length := by
    rw [Nat.le_div_iff_mul_le hn]; have := hF.columns; omega
  have hsum := widths_sum (width / values.length - 1) (by omega) (((width % values.length : Nat) : Int) - 1) values (by omega)
    (by have := Nat.mod_lt width hn; omega) (fun _ => hF.some_column)
  have hge := widths_ge (width / values.length - 1) (((width % values.length : Nat) : Int) - 1) values
  have hwl := widths_length (width / values.length - 1) (((width % values.length : Nat) : Int) - 1) values
  have hcs : cs = List.zipWith (fun w c => ((cells height w c)[i]?).getD [])
      (widths (width / values.length - 1) (((width % values.length : Nat) : Int) - 1) values) values := by
    show (allCells height (width / values.length - 1) _ values).map _ = _
    unfold allCells
    rw [List.map_zipWith]
  clear_value cs
  generalize hcW : width / values.length - 1 = cW at *
  generalize hws : widths cW (((width % values.length : Nat) : Int) - 1) values = ws at *
  have hcell : ∀ w ∈ ws, ∀ c ∈ values, (((cells height w c)[i]?).getD []).length = w ∧ '\n' ∉ ((cells height w c)[i]?).getD [] ∧
      ∀ k, i = k + 1 → IsCell w (valueAt c k).1 (valueAt c k).2 (((cells height w c)[i]?).getD []) := by
    intro w hw c hc
    have hwge := hge w hw
    have ht : c.1.length ≤ w := by have := hF.titles c hc; omega
    cases i with
    | zero =>
      rw [cells_zero]
      exact ⟨center_length _ _ _ ht, center_noBreak _ _ _ (by decide) (hF.noBreakValues c hc).1, fun k hk => by omega⟩
    | succ k =>
      rw [cells_succ height w c ht k (by omega)]
      have hr : (showInt (valueAt c k).2).length ≤ 2 := by
        unfold valueAt
        cases hx : c.2[k]? with
        | none => decide
        | some p => exact hF.ranks c hc p (List.mem_of_getElem? hx)
      have hv : '\n' ∉ (valueAt c k).1 := by
        unfold valueAt
        cases hx : c.2[k]? with
        | none => decide
        | some p => exact (hF.noBreakValues c hc).2 p (List.mem_of_getElem? hx)
      have := prepEntry_cell w (by omega) (valueAt c k).1 (valueAt c k).2 hr
      refine ⟨this.width, prepEntry_noBreak _ _ _ hv, fun k' hk' => ?_⟩
      have : k' = k := by omega
      subst this
      exact this
  refine ⟨by rw [hcs, List.length_zipWith, hwl]; simp, ?_, ?_, ?_⟩
  · have hlens : cs.map List.length = ws := by
      rw [hcs, List.map_zipWith]
      clear hcs cs hsum hws hcW
      have : ∀ (vs : List Column) (ws : List Nat), ws.length = vs.length →
          (∀ w ∈ ws, ∀ c ∈ vs, (((cells height w c)[i]?).getD []).length = w) → List.zipWith (fun w c => (((cells height w c)[i]?).getD []).length) ws vs = ws := by
        intro vs
        induction vs with
        | nil => intro ws h _; have : ws = [] := by simpa using h
                 subst this; rfl
        | cons c vs ih =>
          intro ws h hh
          cases ws with
          | nil => rfl
          | cons w ws =>
            rw [List.zipWith_cons_cons, hh w (by simp) c (by simp), ih ws (by simpa using h) fun w' hw' c' hc' =>
              hh w' (List.mem_cons_of_mem _ hw') c' (List.mem_cons_of_mem _ hc')]
      exact this values ws hwl fun w hw c hc => (hcell w hw c hc).1
    rw [hlens]
    have hdm := Nat.div_add_mod width values.length
    have hz : (ws.sum : Int) = values.length * cW + (((width % values.length : Nat) : Int) - 1) := hsum
    have hcW1 : cW + 1 = width / values.length := by omega
    have hmul : values.length * (cW + 1) = values.length * cW + values.length := by rw [Nat.mul_add, Nat.mul_one]
    rw [← hcW1, hmul] at hdm
    have hz' : (ws.sum : Int) = ((values.length * cW : Nat) : Int) + (((width % values.length : Nat) : Int) - 1) := by rw [hz]; push_cast; rfl
    omega
  · intro x hx
    rw [hcs] at hx
    obtain ⟨k, hk, rfl⟩ := List.getElem_of_mem hx
    rw [List.getElem_zipWith]
    exact (hcell _ (List.getElem_mem _) _ (List.getElem_mem _)).2.1
  · intro k hk
    rw [hcs]
    have : ∀ (vs : List Column) (ws : List Nat), ws.length = vs.length →
        (∀ w ∈ ws, ∀ c ∈ vs, IsCell w (valueAt c k).1 (valueAt c k).2 (((cells height w c)[i]?).getD [])) →
        List.Forall₂ (fun (c : Column) x => ∃ w, IsCell w (valueAt c k).1 (valueAt c k).2 x) vs (List.zipWith (fun w c => ((cells height w c)[i]?).getD []) ws vs) := by
      intro vs
      induction vs with
      | nil => intro ws h _; have : ws = [] := by simpa using h
               subst this; exact .nil
      | cons c vs ih =>
        intro ws h hh
        cases ws with
        | nil => simp at h
        | cons w ws =>
          refine .cons ⟨w, hh w (by simp) c (by simp)⟩ (ih ws (by simpa using h) fun w' hw' c' hc' => ?_)
          exact hh w' (List.mem_cons_of_mem _ hw') c' (List.mem_cons_of_mem _ hc')
    exact this values ws hwl fun w hw c hc => (hcell w hw c hc).2.2 k hk

/-- The lines of the compact header. -/
def headerLines (I : Info) (width : Nat) : List Str :=
  (['+'] ++ padRight '+' (width - 1) (I.cls ++ " glimpse made at: ".toList ++ I.now)) ::
  (['|'] ++ padRight '+' (width - 2) (showNat I.size ++ " Records from ".toList ++ I.name.take 30) ++ ['|']) ::
  (if description.length > width - 2 then
    [['|'] ++ padRight '+' (width - 2) description1 ++ ['|'], ['|'] ++ padRight '+' (width - 2) description2 ++ ['|']]
   else [['|'] ++ padRight '+' (width - 2) description ++ ['|']])

theorem makeHeader_compact (I : Info) (width : Nat) (t : Str) (ls : List Str) (hl : ls ≠ []) (ht : t = Str.join ['\n'] ls) :
    makeHeader I width true ++ t = Str.join ['\n'] (headerLines I width ++ ls) := by
  subst ht
  unfold makeHeader headerLines
  dsimp only
  rw [if_pos rfl]
  have hj : ∀ (a : Str) (l : List Str), l ≠ [] → Str.join ['\n'] (a :: l) = a ++ ['\n'] ++ Str.join ['\n'] l := fun a l h => Str.join_cons _ _ _ h
  split
  · simp only [List.cons_append, List.nil_append]
    rw [hj _ _ (by simp), hj _ _ (by simp), hj _ _ (by simp), hj _ _ hl]
    simp
  · simp only [List.cons_append, List.nil_append]
    rw [hj _ _ (by simp), hj _ _ (by simp), hj _ _ hl]
    simp

theorem description_lengths : description1.length = 41 ∧ description2.length = 34 ∧ description.length = 76 := by decide

theorem headerLines_spec (I : Info) (values : List Column) (width : Nat) (hF : Fits I values width) (hw : 55 ≤ width) :
    (headerLines I width).length = (if 77 < width then 3 else 4) ∧ ∀ l ∈ headerLines I width, l.length = width ∧ '\n' ∉ l := by
  obtain ⟨d1, d2, d3⟩ := description_lengths
  have n1 : '\n' ∉ description1 := by decide
  have n2 : '\n' ∉ description2 := by decide
  have n3 : '\n' ∉ description := by decide
  have hbar : ∀ s : Str, s.length ≤ width - 2 → '\n' ∉ s → (['|'] ++ padRight '+' (width - 2) s ++ ['|']).length = width ∧ '\n' ∉ ['|'] ++ padRight '+' (width - 2) s ++ ['|'] := by
    intro s hs hb
    constructor
    · have := padRight_length '+' (width - 2) s hs
      simp [this]; omega
    · have := padRight_noBreak '+' (width - 2) s (by decide) hb
      simp [this]
  have hd : ∀ n : Nat, '\n' ∉ showNat n := by
    intro n h
    exact absurd (showNat_digits n _ h) (by decide)
  constructor
  · unfold headerLines
    rw [d3]
    by_cases h : 77 < width
    · rw [if_pos h, if_neg (by omega)]; rfl
    · rw [if_neg h, if_pos (by omega)]; rfl
  · intro l hl
    unfold headerLines at hl
    rcases List.mem_cons.1 hl with rfl | hl
    · have hle : (I.cls ++ " glimpse made at: ".toList ++ I.now).length ≤ width - 1 := by
        have := hF.cls; simp; omega
      have hb : '\n' ∉ I.cls ++ " glimpse made at: ".toList ++ I.now := by
        have := hF.noBreak; simp [this.1, this.2.1]
      constructor
      · have := padRight_length '+' (width - 1) _ hle
        rw [List.length_append, this]; simp; omega
      · have := padRight_noBreak '+' (width - 1) _ (by decide) hb
        intro h
        rcases List.mem_append.1 h with h | h
        · simp at h
        · exact this h
    rcases List.mem_cons.1 hl with rfl | hl
    · refine hbar _ ?_ ?_
      · have := hF.size
        simp only [List.length_append, List.length_take]
        have : (" Records from ".toList).length = 14 := by decide
        omega
      · have := hF.noBreak.2.2
        simp only [List.mem_append, not_or]
        refine ⟨⟨hd _, by decide⟩, fun h => this (List.mem_of_mem_take h)⟩
    split at hl
    · simp only [List.mem_cons, List.not_mem_nil, or_false] at hl
      rcases hl with rfl | rfl
      · exact hbar _ (by omega) n1
      · exact hbar _ (by omega) n2
    · rename_i h
      simp only [List.mem_cons, List.not_mem_nil, or_false] at hl
      subst hl
      exact hbar _ (by omega) n3

/-! ## The property -/

/-- The compact table of a collection whose texts fit: every line is exactly as wide as the terminal. There are two lines fewer than the terminal has,
one fewer if it is 76 or 77 wide. Line by line the cells show the ranked values of the columns, in order. -/
theorem C72_compact (I : Info) (values : List Column) (cols rows : Nat) (hc : 55 ≤ cols) (hr : 7 ≤ rows) (hF : Fits I values cols) :
    ∃ text lines, glimpse I values cols rows true = some text ∧ Str.split ['\n'] text = lines ∧ (∀ l ∈ lines, l.length = cols) ∧
      lines.length + (if cols = 76 ∨ cols = 77 then 1 else 2) = rows ∧
      ∃ head heading body, lines = head ++ heading :: body ∧ head.length = (if 77 < cols then 3 else 4) ∧
        ∀ i l, body[i]? = some l → ∃ xs, l = ['|'] ++ ['|'].intercalate xs ++ ['|'] ∧
          List.Forall₂ (fun (c : Column) x => ∃ w, IsCell w (valueAt c i).1 (valueAt c i).2 x) values xs := by
  have hn : values ≠ [] := hF.some_column
  obtain ⟨height, hheight, hcount⟩ : ∃ height : Nat, (if description.length > cols then (rows : Int) - 7 else (rows : Int) - 6) = height ∧
      height + (if cols < 76 then 7 else 6) = rows := by
    rw [description_lengths.2.2]
    by_cases h : 76 > cols
    · rw [if_pos h, if_pos h]; exact ⟨rows - 7, by omega, by omega⟩
    · rw [if_neg h, if_neg h]; exact ⟨rows - 6, by omega, by omega⟩
  obtain ⟨hhl, hhw⟩ := headerLines_spec I values cols hF hc
  let tl := tableLines height (cols / values.length - 1) (((cols % values.length : Nat) : Int) - 1) values
  have htl : ∀ l ∈ tl, l.length = cols ∧ '\n' ∉ l := by
    intro l hl
    rcases List.mem_cons.1 hl with rfl | hl
    · obtain ⟨h1, h2, h3, _⟩ := line_cells I values cols hF height 0 (by omega)
      constructor
      · rw [firstRow_length _ (by intro h; rw [h] at h1; exact hn (List.length_eq_zero_iff.1 h1.symm)), h1]; exact h2
      · unfold firstRow
        have := join_noBreak ['+'] _ (by decide) h3
        simp only [List.mem_append, not_or]
        exact ⟨⟨by decide, this⟩, by decide⟩
    · obtain ⟨i, hi, rfl⟩ := List.mem_map.1 hl
      rw [List.mem_range] at hi
      obtain ⟨h1, h2, h3, _⟩ := line_cells I values cols hF height (i + 1) (by omega)
      constructor
      · rw [otherRow_length, h1]; exact h2
      · unfold otherRow
        simp only [List.mem_append, List.mem_flatMap, not_or]
        refine ⟨?_, by decide⟩
        rintro ⟨x, hx, h⟩
        rcases List.mem_cons.1 h with h | h
        · exact absurd h (by decide)
        · exact h3 x hx h
  refine ⟨Str.join ['\n'] (headerLines I cols ++ tl), headerLines I cols ++ tl, ?_, ?_, ?_, ?_, ?_⟩
  · unfold glimpse
    dsimp only
    rw [if_neg (show ¬ cols < 55 by omega), if_neg (show ¬ rows < 6 by omega), hheight, makeTable_compact]
    rw [Option.map_some]
    exact congrArg some (makeHeader_compact I cols _ tl (by simp [tl, tableLines]) rfl)
  · refine Str.split_join_char '\n' _ (by simp [tl, tableLines]) ?_
    intro p hp
    rcases List.mem_append.1 hp with h | h
    · exact (hhw p h).2
    · exact (htl p h).2
  · intro l hl
    rcases List.mem_append.1 hl with h | h
    · exact (hhw l h).1
    · exact (htl l h).1
  · rw [List.length_append, hhl]
    have : tl.length = height + 1 := by simp [tl, tableLines]
    rw [this]
    by_cases h1 : 77 < cols
    · rw [if_pos h1, if_neg (by omega)]; rw [if_neg (by omega)] at hcount; omega
    · rw [if_neg h1]
      by_cases h2 : cols < 76
      · rw [if_neg (by omega)]; rw [if_pos h2] at hcount; omega
      · rw [if_pos (by omega)]; rw [if_neg h2] at hcount; omega
  · refine ⟨headerLines I cols, _, _, rfl, hhl, ?_⟩
    intro i l hl
    rw [List.getElem?_map] at hl
    by_cases hi : i < height
    · rw [List.getElem?_range hi] at hl
      obtain ⟨h1, h2, h3, h4⟩ := line_cells I values cols hF height (i + 1) (by omega)
      refine ⟨_, ?_, h4 i rfl⟩
      have hl' := (Option.some.inj hl).symm
      rw [hl']
      dsimp only
      rw [otherRow_eq]
      intro h; rw [h] at h1; exact hn (List.length_eq_zero_iff.1 h1.symm)
    · rw [List.getElem?_eq_none (by simpa using hi)] at hl
      cases hl

theorem sliceTo_length {α : Type} (n : Int) (s : List α) (h : 0 ≤ n) : (sliceTo n s).length ≤ n.toNat := by
  unfold sliceTo; rw [if_pos h]; simp

/-- The lines of values of the plain list are at most as wide as the terminal: the rank, a blank and the beginning of the value. -/
theorem C72_plain (I : Info) (values : List Column) (cols rows : Nat) (hc : 55 ≤ cols) (hr : 7 ≤ rows)
    (hrank : ∀ c ∈ values, ∀ p ∈ c.2, (showInt p.2).length < cols) :
    ∃ text blocks, glimpse I values cols rows false = some (text ++ Str.join ['\n'] (blocks : List (List Str)).flatten) ∧
      List.Forall₂ (fun (c : Column) (b : List Str) => ∃ vs, b = [] :: c.1 :: vs ∧
        (∀ l ∈ vs, l.length ≤ cols) ∧
        vs.length = min ((if cols < 76 then rows - 7 else rows - 6) / 2) c.2.length ∧
        ∀ (i : Nat) (l : Str) (p : Str × Int), vs[i]? = some l → c.2[i]? = some p → l = showInt p.2 ++ [' '] ++ p.1.take (cols - (showInt p.2).length - 1)) values blocks := by
  refine ⟨makeHeader I cols false, values.map (fun (c : Column) => [] :: c.1 :: (sliceTo ((if description.length > cols then (rows : Int) - 7 else (rows : Int) - 6) / 2) c.2).map
      (fun (p : Str × Int) => showInt p.2 ++ [' '] ++ sliceTo ((cols : Int) - (showInt p.2).length - 1) p.1)), ?_, ?_⟩
  · unfold glimpse makeTable
    dsimp only
    rw [if_neg (show ¬ cols < 55 by omega), if_neg (show ¬ rows < 6 by omega), if_neg (by simp), Option.map_some, List.flatMap_def]
  · have hH : (if description.length > cols then (rows : Int) - 7 else (rows : Int) - 6) / 2 = (((if cols < 76 then rows - 7 else rows - 6) / 2 : Nat) : Int) := by
      rw [description_lengths.2.2]
      by_cases h : 76 > cols
      · rw [if_pos h, if_pos h]; omega
      · rw [if_neg h, if_neg h]; omega
    rw [hH]
    generalize (if cols < 76 then rows - 7 else rows - 6) / 2 = H
    rw [List.forall₂_map_right_iff, List.forall₂_same]
    intro c hcm
    refine ⟨_, rfl, ?_, ?_, ?_⟩
    · intro l hl
      obtain ⟨p, hp, rfl⟩ := List.mem_map.1 hl
      rw [sliceTo_nonneg] at hp
      have h1 := hrank c hcm p (List.mem_of_mem_take hp)
      have h2 := sliceTo_length ((cols : Int) - (showInt p.2).length - 1) p.1 (by omega)
      simp only [List.length_append, List.length_singleton]
      omega
    · rw [sliceTo_nonneg]; simp
    · intro i l p hl hp
      rw [sliceTo_nonneg, List.getElem?_map] at hl
      by_cases hi : i < H
      · rw [List.getElem?_take_of_lt hi, hp] at hl
        have h1 := hrank c hcm p (List.mem_of_getElem? hp)
        have hl' := (Option.some.inj hl).symm
        rw [hl']
        dsimp only
        rw [show (cols : Int) - (showInt p.2).length - 1 = ((cols - (showInt p.2).length - 1 : Nat) : Int) by omega, sliceTo_nonneg]
      · rw [List.getElem?_eq_none (by simp; omega)] at hl
        cases hl

/-- A terminal smaller than 55 columns is treated as one of 80 columns, one with less than six rows as one of 24 rows. -/
theorem C72_default_size (I : Info) (values : List Column) (cols rows : Nat) (compact : Bool) :
    (cols < 55 → glimpse I values cols rows compact = glimpse I values 80 rows compact) ∧
    (rows < 6 → glimpse I values cols rows compact = glimpse I values cols 24 compact) := by
  constructor
  · intro h; unfold glimpse; rw [if_pos h]; rfl
  · intro h; unfold glimpse; dsimp only; rw [if_pos h, if_neg (by omega : ¬ (24 : Nat) < 6)]

/-- A terminal with six rows and less than 76 columns leaves no room for the heading: the compact table raises `IndexError`, for every collection. -/
theorem C72_small_raises (I : Info) (values : List Column) (cols : Nat) (hc : 55 ≤ cols) (hc' : cols < 76) : glimpse I values cols 6 true = none := by
  unfold glimpse makeTable
  dsimp only
  rw [if_neg (show ¬ cols < 55 by omega), if_neg (show ¬ (6 : Nat) < 6 by omega), description_lengths.2.2, if_pos rfl, if_pos (show 76 > cols by omega), if_pos (by decide)]
  rfl

/-! ## The hypotheses can be met, and are needed -/

/-- A collection for the examples. -/
def sampleInfo : Info := ⟨"RecordCollection".toList, 33, "testFile".toList, "2016-01-01 12:00:00".toList⟩
def sampleCols : List Column :=
  [("Top Authors".toList, [("Girard, S".toList, 1), ("Gilles, H".toList, 1), ("IMBERT, C".toList, 2)]),
   ("Top Journals".toList, [("CANADIAN JOURNAL OF PHYSICS".toList, 1)]),
   ("Top Cited".toList, [("LEVY Y, 1975, OPT COMMUN".toList, 1)])]

theorem sample_fits : Fits sampleInfo sampleCols 80 := by
  constructor <;> decide

example : ∃ text, glimpse sampleInfo sampleCols 80 24 true = some text ∧ (Str.split ['\n'] text).length = 22 := by
  obtain ⟨text, lines, h1, h2, _, h4, _⟩ := C72_compact sampleInfo sampleCols 80 24 (by decide) (by decide) sample_fits
  exact ⟨text, h1, by rw [h2]; simpa using h4⟩

/-- A tag whose name does not fit into its column makes the line of the headings wider than the terminal. -/
theorem C72_long_title : ∃ (values : List Column) (text : Str), glimpse sampleInfo values 80 7 true = some text ∧
    ∃ l ∈ Str.split ['\n'] text, l.length ≠ 80 :=
  ⟨[("authorsFull".toList, []), ("a".toList, []), ("b".toList, []), ("c".toList, []), ("d".toList, []), ("e".toList, []), ("f".toList, []),
    ("g".toList, []), ("h".toList, []), ("i".toList, [])], _, rfl, "|authorsFull+---a---+---b---+---c---+---d---+---e---+---f---+---g---+---h---+---i---|".toList,
    by decide +kernel, by decide⟩

end Verif.Props.Glimpse
