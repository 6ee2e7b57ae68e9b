import Verif.Model.MdToNb
import Verif.Spec.MdToNb
import Verif.Props.ScopusCite

/-! # C79: the notebook made of a markdown file -/
set_option autoImplicit false
set_option linter.unusedSimpArgs false
namespace Verif.Props.MdToNb
open Verif.Py Verif.Py.Regex Verif.Model.MdToNb Verif.Spec.MdToNb

/-! ## The words of the statements -/

/-- The text of a cell, and whether it is code. -/
def isPy : Cell → Bool
  | .md _ => false
  | .py _ => true
def textOf : Cell → Str
  | .md s => s
  | .py s => s

/-- The lines of a text that are not empty. -/
def pieces (s : Str) : List Str := (Str.split ['\n'] s).filter (fun p => p ≠ [])

/-- The texts of the code cells. -/
def pyTexts (l : List Cell) : List Str := (l.filter isPy).map textOf

/-- What the code cells should be: the runs of lines of code with one number. -/
def pyOf (rs : List (Option Str × List Str)) : List Str := (rs.filter (fun p => p.1.isSome)).map (fun p => p.2.flatMap (fun x => x ++ ['\n']))

/-! ## Lines of code -/

theorem isDig_bracket : isDig ']' = false := by decide
theorem isDig_nl : isDig '\n' = false := by decide

theorem kind_code (n t : Str) (hn : ∀ c ∈ n, isDig c = true) : kind ('[' :: (n ++ ']' :: t)) = (some n, t) := by
  unfold kind
  have h1 : (n ++ ']' :: t).dropWhile isDig = ']' :: t := by
    rw [List.dropWhile_append_of_pos hn, List.dropWhile_cons_of_neg (by simp [isDig_bracket])]
  have h2 : (n ++ ']' :: t).takeWhile isDig = n := by
    rw [List.takeWhile_append_of_pos hn, List.takeWhile_cons_of_neg (by simp [isDig_bracket])]; simp
  simp only [h1, h2]

theorem kind_some (x n t : Str) (h : kind x = (some n, t)) : x = '[' :: (n ++ ']' :: t) ∧ ∀ c ∈ n, isDig c = true := by
  unfold kind at h
  split at h
  · rename_i r
    split at h
    · rename_i text hd
      obtain ⟨h1, h2⟩ := Prod.mk.inj h
      have h1 := Option.some.inj h1
      subst h1; subst h2
      constructor
      · rw [← hd, List.takeWhile_append_dropWhile]
      · intro c hc; exact List.all_eq_true.1 List.all_takeWhile c hc
    · cases h
  · cases h

theorem kind_none (x t : Str) (h : kind x = (none, t)) : t = x := by
  unfold kind at h
  split at h
  · split at h
    · cases h
    · exact (Prod.mk.inj h).2.symm
  · exact (Prod.mk.inj h).2.symm

theorem codeOf_some (x tail : Str) (hx : '\n' ∉ x) (ht : tail = [] ∨ tail = ['\n']) (n t : Str) (h : kind x = (some n, t)) :
    codeOf (x ++ tail) = some (n, t) := by
  obtain ⟨e, hn⟩ := kind_some x n t h
  have htn : ∀ c ∈ t, (c ≠ '\n') := by
    rintro c hc rfl
    exact hx (by rw [e]; simp [hc])
  have hm : m codeRe some ⟨x ++ tail, []⟩ = some ⟨tail, [(2, t), (1, n)]⟩ := by
    have e2 : x ++ tail = ['['] ++ (n ++ ([']'] ++ (t ++ tail))) := by rw [e]; simp
    rw [e2]
    unfold codeRe
    rw [m, ScopusCite.lit_yes, m]
    apply ScopusCite.greedy_grp isDig 0 1 n _ [] _ _ hn
    · intro c t' hc; rw [List.singleton_append] at hc; cases hc; exact isDig_bracket
    · simp
    rw [m, ScopusCite.lit_yes]
    apply ScopusCite.greedy_grp
    · intro c hc; simpa using htn c hc
    · intro c t' hc
      rcases ht with rfl | rfl
      · cases hc
      · cases hc; simp
    · simp
    · rfl
  unfold codeOf matchStart
  rw [hm]
  rfl

theorem codeOf_none (x tail : Str) (ht : tail = [] ∨ tail = ['\n']) (t : Str) (h : kind x = (none, t)) : codeOf (x ++ tail) = none := by
  cases hc : m codeRe some ⟨x ++ tail, []⟩ with
  | none => unfold codeOf matchStart; rw [hc]; rfl
  | some s =>
    exfalso
    obtain ⟨s', hr, -⟩ := m_sound _ _ _ _ hc
    obtain ⟨s1, ⟨h1, -⟩, s2, ⟨s3, w, ⟨w', hw1, hw2, -⟩, hw3, rfl⟩, s4, ⟨h4, -⟩, -⟩ := hr
    dsimp only at h1 h4
    have hww : w = w' := by rw [hw3] at hw1; exact List.append_cancel_right hw1
    subst hww
    rw [hw1, h4] at h1
    have e : x ++ tail = '[' :: (w ++ ']' :: s4.rest) := by rw [h1]; simp
    have : ∃ r, x = '[' :: (w ++ ']' :: r) := by
      rcases ht with rfl | rfl
      · exact ⟨s4.rest, by simpa using e⟩
      · have hne : s4.rest ≠ [] := by
          intro h0
          rw [h0] at e
          have := congrArg List.getLast? e
          simp [List.getLast?_append, List.getLast?_cons] at this
        refine ⟨s4.rest.dropLast, ?_⟩
        have e' := congrArg List.dropLast e
        rw [List.dropLast_concat] at e'
        rw [e']
        have : '[' :: (w ++ ']' :: s4.rest) = ('[' :: (w ++ [']'])) ++ s4.rest := by simp
        rw [this, List.dropLast_append_of_ne_nil hne]; simp
    obtain ⟨r, hr⟩ := this
    rw [hr, kind_code w r hw2] at h
    cases h

/-! ## The lines of a text -/

theorem split_at (c : Char) (acc a b : Str) : Str.splitGo [c] 0 acc (a ++ c :: b) = Str.splitGo [c] 0 acc a ++ Str.splitGo [c] 0 [] b := by
  induction a generalizing acc with
  | nil => simp [Str.splitGo]
  | cons x a ih =>
    by_cases hx : x = c
    · subst hx; simp [Str.splitGo, ih]
    · have hx' : ¬ c = x := fun e => hx e.symm
      simp [Str.splitGo, ih, hx, hx']

theorem pieces_nl (a b : Str) : pieces (a ++ '\n' :: b) = pieces a ++ pieces b := by
  unfold pieces Str.split
  rw [split_at, List.filter_append]

theorem pieces_nil : pieces [] = [] := by rfl

theorem pieces_append (a b : Str) (h : a = [] ∨ ∃ x, a = x ++ ['\n']) : pieces (a ++ b) = pieces a ++ pieces b := by
  rcases h with rfl | ⟨x, rfl⟩
  · rfl
  · rw [List.append_assoc, List.singleton_append, pieces_nl, pieces_nl, pieces_nil, List.append_nil]

theorem pieces_dropLast (x : Str) : pieces (x ++ ['\n']) = pieces x := by
  rw [pieces_nl, pieces_nil, List.append_nil]

theorem pieces_one (x : Str) (h : '\n' ∉ x) : pieces x = [x].filter (fun p => p ≠ []) := by
  unfold pieces
  rw [Str.split_none _ _ (by rw [List.singleton_infix_iff]; exact h)]

theorem pieces_line (x tail : Str) (hx : '\n' ∉ x) (ht : tail = [] ∨ tail = ['\n']) : pieces (x ++ tail) = [x].filter (fun p => p ≠ []) := by
  rcases ht with rfl | rfl
  · rw [List.append_nil, pieces_one x hx]
  · rw [pieces_dropLast, pieces_one x hx]

theorem pieces_dropWhile (s : Str) : pieces (s.dropWhile (fun c => c = '\n')) = pieces s := by
  induction s with
  | nil => rfl
  | cons c s ih =>
    by_cases hc : c = '\n'
    · subst hc
      rw [List.dropWhile_cons_of_pos (by simp), ih]
      have := pieces_nl [] s
      rw [List.nil_append, pieces_nil, List.nil_append] at this
      exact this.symm
    · rw [List.dropWhile_cons_of_neg (by simpa using hc)]

/-- The lines of a file whose lines without ends are these. -/
def linesOf : List Str → List Str
  | [] => []
  | [p] => if p = [] then [] else [p]
  | p :: q :: r => (p ++ ['\n']) :: linesOf (q :: r)

theorem lines_join (ps : List Str) (h : ∀ p ∈ ps, '\n' ∉ p) : Lines.lines (Str.join ['\n'] ps) = linesOf ps := by
  induction ps with
  | nil => rfl
  | cons p ps ih =>
    cases ps with
    | nil =>
      show Lines.lines p = if p = [] then [] else [p]
      by_cases hp : p = []
      · rw [if_pos hp, hp]; rfl
      · rw [if_neg hp, Lines.lines_last p (h p (by simp)) hp]
    | cons q r =>
      rw [Str.join_cons _ _ _ (by simp), List.append_assoc, List.singleton_append, Lines.lines_append _ _ (h p (by simp)),
        ih (fun p hp => h p (List.mem_cons_of_mem _ hp))]
      rfl

theorem lines_split (t : Str) : Lines.lines t = linesOf (Str.split ['\n'] t) := by
  rw [← lines_join _ (Str.split_char_pieces '\n' t), Str.join_split _ _ (by simp)]

/-! ## What the cells contain -/

def cellContent (c : Cell) : List (Bool × Str) := (pieces (textOf c)).map (fun p => (isPy c, p))

/-- What the cells contain so far. -/
def C (c : St') : List (Bool × Str) := (done c).flatMap cellContent

def item (p : Str) : List (Bool × Str) := [((kind p).1.isSome, (kind p).2)].filter (fun q => q.2 ≠ [])

/-- The buffer ends with a line end. -/
def Full (c : St') : Prop := c.buf = [] ∨ ∃ x, c.buf = x ++ ['\n']

theorem C_eq (c : St') : C c = c.out.flatMap cellContent ++ (pieces c.buf).map (fun p => (c.py, p)) := by
  unfold C done
  by_cases h : c.buf = []
  · rw [if_pos h, h]; simp [pieces_nil]
  · rw [if_neg h, List.flatMap_append]
    congr 1
    cases c.py <;> simp [cellContent, isPy, textOf]

theorem item_some (p n t : Str) (h : kind p = (some n, t)) : item p = ([t].filter (fun p => p ≠ [])).map (fun p => (true, p)) := by
  unfold item; rw [h]; by_cases ht : t = [] <;> simp [ht]

theorem item_none (p t : Str) (h : kind p = (none, t)) : item p = ([p].filter (fun p => p ≠ [])).map (fun p => (false, p)) := by
  have := kind_none p t h
  subst this
  unfold item; rw [h]; by_cases ht : t = [] <;> simp [ht]

theorem kind_nl (p n t : Str) (hp : '\n' ∉ p) (h : kind p = (some n, t)) : '\n' ∉ t := by
  obtain ⟨e, -⟩ := kind_some p n t h
  intro ht
  exact hp (by rw [e]; simp [ht])

theorem step_content (c : St') (hc : Full c) (p tail : Str) (hp : '\n' ∉ p) (ht : tail = [] ∨ tail = ['\n']) :
    C (step c (p ++ tail)) = C c ++ item p ∧ (tail = ['\n'] → Full (step c (p ++ tail))) := by
  rcases hk : kind p with ⟨k, t⟩
  unfold step
  cases k with
  | some n =>
    have hcode := codeOf_some p tail hp ht n t hk
    have hpt := pieces_line t ['\n'] (kind_nl p n t hp hk) (.inr rfl)
    rw [hcode, item_some p n t hk]
    dsimp only
    by_cases hb : c.buf = []
    · rw [if_pos hb]
      constructor
      · rw [C_eq, C_eq, hb, startPy]; dsimp only; rw [hpt, pieces_nil]; simp
      · intro _; exact .inr ⟨t, rfl⟩
    · rw [if_neg hb]
      by_cases h1 : (c.py : Prop) ∧ c.num = some n
      · rw [if_pos h1]
        constructor
        · rw [C_eq, C_eq]; dsimp only; rw [pieces_append _ _ hc, hpt, h1.1]; simp
        · intro _; exact .inr ⟨c.buf ++ t, by simp⟩
      · rw [if_neg h1]
        by_cases h2 : c.py = true
        · rw [if_pos h2]
          constructor
          · rw [C_eq, C_eq, startPy]; dsimp only; rw [hpt, h2]; simp [cellContent, isPy, textOf]
          · intro _; exact .inr ⟨t, rfl⟩
        · rw [if_neg h2]
          have h2 : c.py = false := by simpa using h2
          constructor
          · rw [C_eq, C_eq, startPy]; dsimp only; rw [hpt, h2]; simp [cellContent, isPy, textOf]
          · intro _; exact .inr ⟨t, rfl⟩
  | none =>
    have hcode := codeOf_none p tail ht t hk
    have hpl := pieces_line p tail hp ht
    rw [hcode, item_none p t hk]
    dsimp only
    by_cases hb : c.buf = []
    · rw [if_pos hb]
      constructor
      · rw [C_eq, C_eq, hb, startMd]; dsimp only; rw [hpl, pieces_nil]; simp
      · rintro rfl; exact .inr ⟨p, rfl⟩
    · rw [if_neg hb]
      by_cases h2 : c.py = false
      · rw [if_pos h2]
        by_cases h3 : p ++ tail = ['\n'] ∧ c.buf.drop (c.buf.length - 2) = ['\n', '\n']
        · rw [if_pos h3]
          have hp0 : p = [] := by
            cases p with
            | nil => rfl
            | cons a p =>
              have := h3.1
              rw [List.cons_append] at this
              have := (List.cons.inj this).1
              subst this
              exact absurd List.mem_cons_self hp
          constructor
          · rw [C_eq, C_eq]
            dsimp only
            rcases hc with hc | ⟨x, hc⟩
            · exact absurd hc hb
            · rw [hc, List.dropLast_concat, pieces_dropLast, pieces_nil, hp0, h2]
              simp [cellContent, isPy, textOf]
          · intro _; exact .inl rfl
        · rw [if_neg h3]
          constructor
          · rw [C_eq, C_eq]; dsimp only; rw [pieces_append _ _ hc, hpl, h2]; simp
          · rintro rfl; exact .inr ⟨c.buf ++ p, by simp⟩
      · rw [if_neg h2]
        have h2 : c.py = true := by simpa using h2
        constructor
        · rw [C_eq, C_eq, startMd]; dsimp only; rw [hpl, h2]; simp [cellContent, isPy, textOf]
        · rintro rfl; exact .inr ⟨p, rfl⟩

theorem item_nil : item [] = [] := by rfl

theorem fold_content (ps : List Str) (hps : ∀ p ∈ ps, '\n' ∉ p) (c : St') (hc : Full c) : C ((linesOf ps).foldl step c) = C c ++ ps.flatMap item := by
  induction ps generalizing c with
  | nil => simp [linesOf]
  | cons p ps ih =>
    cases ps with
    | nil =>
      rw [linesOf]
      by_cases hp : p = []
      · rw [if_pos hp, hp]; simp [item_nil]
      · rw [if_neg hp, List.foldl_cons, List.foldl_nil]
        have := (step_content c hc p [] (hps p (by simp)) (.inl rfl)).1
        rw [List.append_nil] at this
        rw [this]; simp
    | cons q r =>
      rw [linesOf, List.foldl_cons]
      obtain ⟨h1, h2⟩ := step_content c hc p ['\n'] (hps p (by simp)) (.inr rfl)
      rw [ih (fun p hp => hps p (List.mem_cons_of_mem _ hp)) _ (h2 rfl), h1]
      simp

theorem content_items (t : Str) : content t = (Str.split ['\n'] t).flatMap item := by
  unfold content kinds
  rw [List.map_map, ← List.flatMap_singleton' ((Str.split ['\n'] t).map _), List.flatMap_map, List.filter_flatMap]
  rfl

/-- **C79.** The lines of the file that are not empty are the lines of the cells that are not empty, in the same order, lines of code (without their
number) in code cells and other lines in markdown cells. -/
theorem C79_lines (text : Str) :
    (cells text).flatMap (fun c => (pieces (textOf c)).map (fun p => (isPy c, p))) = content (Lines.univ text) := by
  have h := fold_content (Str.split ['\n'] (Lines.univ text)) (Str.split_char_pieces '\n' _) ⟨none, false, [], []⟩ (.inl rfl)
  rw [← lines_split] at h
  rw [content_items]
  exact h

/-! ## The code cells -/

/-- Code cells to come, with one of number `n` in the buffer. -/
def pend (n buf : Str) (rs : List (Option Str × List Str)) : List Str :=
  match rs with
  | (some k, xs) :: r => if k = n then (buf ++ xs.flatMap (fun x => x ++ ['\n'])) :: pyOf r else buf :: pyOf rs
  | _ => buf :: pyOf rs

theorem pyOf_none (x : Str) (l : List (Option Str × Str)) : pyOf (runs ((none, x) :: l)) = pyOf (runs l) := by
  rw [runs]
  cases h : runs l with
  | nil => rfl
  | cons q rs =>
    obtain ⟨k, xs⟩ := q
    dsimp only
    by_cases hk : (none : Option Str) = k
    · subst hk; simp [pyOf]
    · rw [if_neg hk]; simp [pyOf]

theorem pyOf_some (n x : Str) (l : List (Option Str × Str)) : pyOf (runs ((some n, x) :: l)) = pend n (x ++ ['\n']) (runs l) := by
  rw [runs]
  cases h : runs l with
  | nil => simp [pyOf, pend]
  | cons q rs =>
    obtain ⟨k, xs⟩ := q
    dsimp only
    by_cases hk : some n = k
    · subst hk; simp [pyOf, pend]
    · rw [if_neg hk]
      cases k with
      | none => simp [pyOf, pend]
      | some k =>
        have : ¬ k = n := fun e => hk (by rw [e])
        simp [pyOf, pend, this]

theorem pend_same (n buf x : Str) (l : List (Option Str × Str)) : pend n buf (runs ((some n, x) :: l)) = pend n (buf ++ (x ++ ['\n'])) (runs l) := by
  rw [runs]
  cases h : runs l with
  | nil => simp [pyOf, pend]
  | cons q rs =>
    obtain ⟨k, xs⟩ := q
    dsimp only
    by_cases hk : some n = k
    · subst hk; simp [pyOf, pend]
    · rw [if_neg hk]
      cases k with
      | none => simp [pyOf, pend]
      | some k =>
        have : ¬ k = n := fun e => hk (by rw [e])
        simp [pyOf, pend, this]

theorem pend_other (n buf k x : Str) (hk : k ≠ n) (l : List (Option Str × Str)) :
    pend n buf (runs ((some k, x) :: l)) = buf :: pyOf (runs ((some k, x) :: l)) := by
  have : ∃ xs r, runs ((some k, x) :: l) = (some k, xs) :: r := by
    rw [runs]
    cases h : runs l with
    | nil => exact ⟨_, _, rfl⟩
    | cons q rs =>
      obtain ⟨k', xs⟩ := q
      dsimp only
      by_cases hk : some k = k'
      · subst hk; rw [if_pos rfl]; exact ⟨_, _, rfl⟩
      · rw [if_neg hk]; exact ⟨_, _, rfl⟩
  obtain ⟨xs, r, e⟩ := this
  rw [e]
  simp [pend, hk]

theorem pend_md (n buf x : Str) (l : List (Option Str × Str)) : pend n buf (runs ((none, x) :: l)) = buf :: pyOf (runs l) := by
  have : ∃ xs r, runs ((none, x) :: l) = (none, xs) :: r := by
    rw [runs]
    cases h : runs l with
    | nil => exact ⟨_, _, rfl⟩
    | cons q rs =>
      obtain ⟨k', xs⟩ := q
      dsimp only
      by_cases hk : none = k'
      · subst hk; rw [if_pos rfl]; exact ⟨_, _, rfl⟩
      · rw [if_neg hk]; exact ⟨_, _, rfl⟩
  obtain ⟨xs, r, e⟩ := this
  rw [← pyOf_none x l, e]
  simp [pend]

/-- The code cells that are to come from a state. -/
def rest (c : St') (rs : List (Option Str × List Str)) : List Str :=
  if c.buf ≠ [] ∧ c.py = true then pend (c.num.getD []) c.buf rs else pyOf rs

theorem rest_py (c : St') (n : Str) (hb : c.buf ≠ []) (hp : c.py = true) (hn : c.num = some n) (rs : List (Option Str × List Str)) :
    rest c rs = pend n c.buf rs := by
  unfold rest; rw [if_pos (show c.buf ≠ [] ∧ c.py = true from ⟨hb, hp⟩), hn]; rfl

theorem rest_md (c : St') (h : c.buf = [] ∨ c.py = false) (rs : List (Option Str × List Str)) : rest c rs = pyOf rs := by
  unfold rest; rw [if_neg]
  rintro ⟨h1, h2⟩
  rcases h with h | h
  · exact h1 h
  · rw [h] at h2; cases h2

theorem rest_start (out : List Cell) (g : Str × Str) (rs : List (Option Str × List Str)) : rest (startPy out g) rs = pend g.1 (g.2 ++ ['\n']) rs :=
  rest_py _ g.1 (by simp [startPy]) rfl rfl rs

/-- In a code cell there is a number. -/
def HasNum (c : St') : Prop := c.py = true → ∃ n, c.num = some n

theorem pyTexts_append (a b : List Cell) : pyTexts (a ++ b) = pyTexts a ++ pyTexts b := by simp [pyTexts]
theorem pyTexts_py (s : Str) : pyTexts [.py s] = [s] := rfl
theorem pyTexts_md (s : Str) : pyTexts [.md s] = [] := rfl

theorem step_py (c : St') (hc : HasNum c) (p tail : Str) (hp : '\n' ∉ p) (ht : tail = [] ∨ tail = ['\n'])
    (l : List (Option Str × Str)) :
    pyTexts (step c (p ++ tail)).out ++ rest (step c (p ++ tail)) (runs l) = pyTexts c.out ++ rest c (runs (kind p :: l)) ∧
    HasNum (step c (p ++ tail)) := by
  rcases hk : kind p with ⟨k, t⟩
  unfold step
  cases k with
  | some n =>
    rw [codeOf_some p tail hp ht n t hk]
    dsimp only
    by_cases hb : c.buf = []
    · rw [if_pos hb]
      refine ⟨?_, fun _ => ⟨n, rfl⟩⟩
      rw [rest_start, rest_md c (.inl hb), pyOf_some]; rfl
    · rw [if_neg hb]
      by_cases h1 : (c.py : Prop) ∧ c.num = some n
      · rw [if_pos h1]
        refine ⟨?_, hc⟩
        rw [rest_py c n hb h1.1 h1.2, pend_same]
        rw [rest_py _ n (by simp) (by exact h1.1) (by exact h1.2)]
      · rw [if_neg h1]
        by_cases h2 : c.py = true
        · rw [if_pos h2]
          refine ⟨?_, fun _ => ⟨n, rfl⟩⟩
          obtain ⟨n', hn'⟩ := hc h2
          have hnn : n ≠ n' := fun e => h1 ⟨h2, by rw [hn', e]⟩
          rw [rest_start, rest_py c n' hb h2 hn', pend_other _ _ _ _ hnn, pyOf_some]
          show pyTexts (c.out ++ [.py c.buf]) ++ _ = _
          rw [pyTexts_append, pyTexts_py]; simp
        · rw [if_neg h2]
          refine ⟨?_, fun _ => ⟨n, rfl⟩⟩
          rw [rest_start, rest_md c (.inr (by simpa using h2)), pyOf_some]
          show pyTexts (c.out ++ [.md c.buf]) ++ _ = _
          rw [pyTexts_append, pyTexts_md]; simp
  | none =>
    rw [codeOf_none p tail ht t hk]
    dsimp only
    by_cases hb : c.buf = []
    · rw [if_pos hb]
      refine ⟨?_, fun h => by cases h⟩
      rw [rest_md _ (.inr rfl), rest_md c (.inl hb), pyOf_none]; rfl
    · rw [if_neg hb]
      by_cases h2 : c.py = false
      · rw [if_pos h2]
        by_cases h3 : p ++ tail = ['\n'] ∧ c.buf.drop (c.buf.length - 2) = ['\n', '\n']
        · rw [if_pos h3]
          refine ⟨?_, fun h => by cases h⟩
          rw [rest_md _ (.inr rfl), rest_md c (.inr h2), pyOf_none]
          show pyTexts (c.out ++ [.md _]) ++ _ = _
          rw [pyTexts_append, pyTexts_md]; simp
        · rw [if_neg h3]
          refine ⟨?_, hc⟩
          rw [rest_md _ (.inr (by exact h2)), rest_md c (.inr h2), pyOf_none]
      · rw [if_neg h2]
        have h2 : c.py = true := by simpa using h2
        refine ⟨?_, fun h => by cases h⟩
        obtain ⟨n', hn'⟩ := hc h2
        rw [rest_md _ (.inr rfl), rest_py c n' hb h2 hn', pend_md]
        show pyTexts (c.out ++ [.py c.buf]) ++ _ = _
        rw [pyTexts_append, pyTexts_py]; simp

theorem done_py (c : St') (hc : HasNum c) : pyTexts (done c) = pyTexts c.out ++ rest c [] := by
  unfold done
  by_cases hb : c.buf = []
  · rw [if_pos hb, rest_md c (.inl hb)]; simp [pyOf]
  · rw [if_neg hb, pyTexts_append]
    cases h2 : c.py with
    | true =>
      obtain ⟨n', hn'⟩ := hc h2
      rw [rest_py c n' hb h2 hn']; rfl
    | false => rw [rest_md c (.inr h2)]; rfl

theorem rest_blank (c : St') : rest c (runs [(none, [])]) = rest c [] := by
  unfold rest
  split
  · simp [runs, pend, pyOf]
  · simp [runs, pyOf]

theorem fold_py (ps : List Str) (hps : ∀ p ∈ ps, '\n' ∉ p) (c : St') (hc : HasNum c) :
    pyTexts (done ((linesOf ps).foldl step c)) = pyTexts c.out ++ rest c (runs (ps.map kind)) := by
  induction ps generalizing c with
  | nil => exact done_py c hc
  | cons p ps ih =>
    cases ps with
    | nil =>
      rw [linesOf]
      by_cases hp : p = []
      · rw [if_pos hp, hp, List.foldl_nil, done_py c hc]
        have : kind [] = (none, []) := rfl
        rw [List.map_cons, List.map_nil, this, rest_blank]
      · rw [if_neg hp, List.foldl_cons, List.foldl_nil]
        have := step_py c hc p [] (hps p (by simp)) (.inl rfl) []
        rw [List.append_nil] at this
        rw [done_py _ this.2]
        exact this.1
    | cons q r =>
      rw [linesOf, List.foldl_cons]
      obtain ⟨h1, h2⟩ := step_py c hc p ['\n'] (hps p (by simp)) (.inr rfl) ((q :: r).map kind)
      rw [ih (fun p hp => hps p (List.mem_cons_of_mem _ hp)) _ h2, h1]
      rfl

/-- **C79.** The code cells are the runs of adjacent lines of code with the same number, one cell for each run. -/
theorem C79_code_cells (text : Str) : pyTexts (cells text) = pyOf (runs (kinds (Lines.univ text))) := by
  have h := fold_py (Str.split ['\n'] (Lines.univ text)) (Str.split_char_pieces '\n' _) ⟨none, false, [], []⟩ (fun h => by cases h)
  rw [← lines_split] at h
  rw [rest_md _ (.inl rfl)] at h
  exact h

/-! ## The cells in the notebook -/

/-- Characters that may stand in a JSON string as they are, quotation marks, which are escaped, and line ends. -/
def Clean (s : Str) : Prop := ∀ c ∈ s, c ≠ '\\' ∧ (c = '\n' ∨ 32 ≤ c.toNat)

/-- The escaping of quotation marks. -/
def quote (s : Str) : Str := s.flatMap (fun c => if c = '"' then ['\\', '"'] else [c])

/-- The escaping of a text. -/
def enc (s : Str) : Str := s.flatMap (fun c => if c = '"' then ['\\', '"'] else if c = '\n' then sep else [c])

theorem replace_both (s : Str) : Str.replace ['\n'] sep (Str.replace ['"'] ['\\', '"'] s) = enc s := by
  rw [Bib.replace_char, Bib.replace_char]
  unfold enc
  rw [List.flatMap_assoc]
  congr 1
  funext c
  by_cases h : c = '"'
  · simp [h]
  · simp [h]

theorem jstr_plain (c : Char) (r : Str) (h1 : c ≠ '\\') (h2 : c ≠ '"') (h3 : 32 ≤ c.toNat) : jstr (c :: r) = (jstr r).map (fun p => (c :: p.1, p.2)) := by
  rw [jstr]
  · rw [if_neg (by omega)]
  all_goals (intros; simp_all)

theorem jstr_quote (x r v rest : Str) (hx : Clean x) (hn : '\n' ∉ x) (h : jstr r = some (v, rest)) : jstr (quote x ++ r) = some (x ++ v, rest) := by
  induction x with
  | nil => exact h
  | cons c x ih =>
    have ih := ih (fun d hd => hx d (List.mem_cons_of_mem _ hd)) (fun hd => hn (List.mem_cons_of_mem _ hd))
    obtain ⟨h1, h2⟩ := hx c List.mem_cons_self
    have h2 : 32 ≤ c.toNat := by
      rcases h2 with h2 | h2
      · subst h2; exact absurd List.mem_cons_self hn
      · exact h2
    by_cases hc : c = '"'
    · subst hc
      show jstr ('\\' :: '"' :: (quote x ++ r)) = _
      rw [jstr, ih]; rfl
    · have : quote (c :: x) = c :: quote x := by simp [quote, hc]
      rw [this, List.cons_append, jstr_plain c _ h1 hc h2, ih]; rfl

theorem enc_append (a b : Str) : enc (a ++ b) = enc a ++ enc b := by simp [enc]

theorem enc_line (x : Str) (h : '\n' ∉ x) : enc x = quote x := by
  unfold enc quote
  apply List.flatMap_congr
  intro c hc
  have : c ≠ '\n' := by rintro rfl; exact h hc
  simp [this]

/-- The values of the strings in `source`. -/
def values : List Str → List Str
  | [] => []
  | [p] => [p]
  | p :: q :: r => (p ++ ['\n']) :: values (q :: r)

theorem values_flatten (ps : List Str) : (values ps).flatten = Str.join ['\n'] ps := by
  induction ps with
  | nil => rfl
  | cons p ps ih =>
    cases ps with
    | nil => simp [values, Str.join]
    | cons q r => rw [values, List.flatten_cons, ih, Str.join_cons ['\n'] p (q :: r) (by simp)]

theorem jlist_one (n : Nat) (s r v rest : Str) (hs : s.dropWhile jws = '"' :: r) (h : jstr r = some (v, rest)) (hr : rest.dropWhile jws = []) :
    jlist (n + 1) s = some [v] := by
  rw [jlist, hs]
  simp only [h, hr]

theorem jlist_more (n : Nat) (s r v rest rest' : Str) (hs : s.dropWhile jws = '"' :: r) (h : jstr r = some (v, rest))
    (hr : rest.dropWhile jws = ',' :: rest') : jlist (n + 1) s = (jlist n rest').map (v :: ·) := by
  rw [jlist, hs]
  simp only [h, hr]

theorem jlist_enc (ps : List Str) (hne : ps ≠ []) (hps : ∀ p ∈ ps, '\n' ∉ p ∧ Clean p) (n : Nat) (hn : ps.length ≤ n) (w : Str)
    (hw : ∀ c ∈ w, jws c = true) :
    jlist n (w ++ ('"' :: (enc (Str.join ['\n'] ps) ++ ['"']))) = some (values ps) := by
  induction ps generalizing n w with
  | nil => exact absurd rfl hne
  | cons p ps ih =>
    cases n with
    | zero => simp at hn
    | succ n =>
      obtain ⟨hp1, hp2⟩ := hps p List.mem_cons_self
      have hd : (w ++ ('"' :: (enc (Str.join ['\n'] (p :: ps)) ++ ['"']))).dropWhile jws = '"' :: (enc (Str.join ['\n'] (p :: ps)) ++ ['"']) := by
        rw [List.dropWhile_append_of_pos hw, List.dropWhile_cons_of_neg (by decide)]
      cases ps with
      | nil =>
        have : jstr (enc (Str.join ['\n'] [p]) ++ ['"']) = some (p, []) := by
          show jstr (enc p ++ ['"']) = _
          rw [enc_line p hp1]
          have := jstr_quote p ['"'] [] [] hp2 hp1 rfl
          simpa using this
        rw [jlist_one _ _ _ _ _ hd this rfl]
        rfl
      | cons q r =>
        have : jstr (enc (Str.join ['\n'] (p :: q :: r)) ++ ['"']) =
            some (p ++ ['\n'], ',' :: (['\n', ' ', ' ', ' ', ' ', ' '] ++ ('"' :: (enc (Str.join ['\n'] (q :: r)) ++ ['"'])))) := by
          rw [Str.join_cons _ _ _ (by simp), enc_append, enc_append, enc_line p hp1]
          have e : quote p ++ enc ['\n'] ++ enc (Str.join ['\n'] (q :: r)) ++ ['"'] =
              quote p ++ ('\\' :: 'n' :: '"' :: ',' :: (['\n', ' ', ' ', ' ', ' ', ' '] ++ ('"' :: (enc (Str.join ['\n'] (q :: r)) ++ ['"'])))) := by
            have : enc ['\n'] = sep := by simp [enc]
            rw [this]; simp [sep]
          rw [e]
          exact jstr_quote p _ ['\n'] _ hp2 hp1 (by rw [jstr, jstr]; rfl)
        rw [jlist_more _ _ _ _ _ _ hd this (List.dropWhile_cons_of_neg (by decide))]
        rw [ih (by simp) (fun x hx => hps x (List.mem_cons_of_mem _ hx)) n (by simpa using hn) ['\n', ' ', ' ', ' ', ' ', ' '] (by decide)]
        rfl

theorem length_enc (s : Str) : s.length ≤ (enc s).length := by
  induction s with
  | nil => simp
  | cons c s ih =>
    have : enc (c :: s) = enc [c] ++ enc s := by rw [← enc_append]; rfl
    have h1 : 1 ≤ (enc [c]).length := by
      simp only [enc, List.flatMap_cons, List.flatMap_nil, List.append_nil]
      split
      · simp
      · split <;> simp [sep]
    rw [this, List.length_append, List.length_cons]; omega

theorem split_length (c : Char) (acc s : Str) : (Str.splitGo [c] 0 acc s).length ≤ s.length + 1 := by
  induction s generalizing acc with
  | nil => simp [Str.splitGo]
  | cons x s ih =>
    by_cases hx : x = c
    · subst hx; simp [Str.splitGo]; exact ih _
    · have hx' : ¬ c = x := fun e => hx e.symm
      simp [Str.splitGo, hx, hx']
      have := ih (acc ++ [x]); omega

/-- A text escaped and put between quotation marks is read back. -/
theorem jtext_enc (u : Str) (hu : Clean u) : jtext ('"' :: (enc u ++ ['"'])) = some u := by
  unfold jtext
  have h := jlist_enc (Str.split ['\n'] u) (Str.split_ne_nil _ _) (fun p hp => ⟨Str.split_char_pieces '\n' u p hp, by
      intro c hc
      apply hu
      rw [← Str.join_split ['\n'] u (by simp)]
      clear hu
      revert hp
      generalize Str.split ['\n'] u = ps
      intro hp
      induction ps with
      | nil => cases hp
      | cons q ps ih =>
        rcases List.mem_cons.1 hp with rfl | hp
        · cases ps with
          | nil => exact hc
          | cons r ps => rw [Str.join_cons _ _ _ (by simp)]; simp [hc]
        · have := ih hp
          cases ps with
          | nil => cases hp
          | cons r ps => rw [Str.join_cons _ _ _ (by simp)]; simp only [List.mem_append]; exact .inr this⟩)
    (('"' :: (enc u ++ ['"'])).length + 1) (by
      have h1 := split_length '\n' [] u
      have h2 := length_enc u
      simp only [List.length_cons, List.length_append]
      unfold Str.split
      omega) [] (by simp)
  rw [Str.join_split _ _ (by simp), List.nil_append] at h
  rw [h, Option.map_some, values_flatten, Str.join_split _ _ (by simp)]

/-- The text of a written cell: the text it was made from, without the line ends it begins with and the last one. -/
theorem source_text (x : Str) (hx : Clean x) : jtext (source (x ++ ['\n'])) = some ((x ++ ['\n']).dropWhile (fun c => c = '\n')).dropLast := by
  unfold source preprocess
  rw [replace_both]
  dsimp only
  generalize ht : (x ++ ['\n']).dropWhile (fun c => (c = '\n' : Bool)) = t
  have hsuf : t <:+ x ++ ['\n'] := by rw [← ht]; exact List.dropWhile_suffix _
  rcases List.eq_nil_or_concat t with rfl | ⟨u, d, rfl⟩
  · rfl
  · have hd : d = '\n' := by
      obtain ⟨w, hw⟩ := hsuf
      rw [List.concat_eq_append, ← List.append_assoc] at hw
      exact (List.append_inj' hw rfl).2 |> List.cons.inj |>.1
    subst hd
    rw [List.concat_eq_append, List.dropLast_concat, enc_append]
    have : enc ['\n'] = sep := by simp [enc]
    rw [this, List.length_append]
    have h11 : sep.length = 11 := rfl
    rw [h11, Nat.add_sub_cancel, List.take_left]
    apply jtext_enc
    intro c hc
    obtain ⟨w, hw⟩ := hsuf
    rw [List.concat_eq_append, ← List.append_assoc] at hw
    have hxx := (List.append_inj' hw rfl).1
    exact hx c (by rw [← hxx]; simp [hc])

def OkText (s : Str) : Prop := ∃ x, s = x ++ ['\n'] ∧ Clean x

def Ok (c : St') : Prop := (c.buf = [] ∨ OkText c.buf) ∧ ∀ cell ∈ c.out, OkText (textOf cell)

theorem clean_append {a b : Str} : Clean (a ++ b) ↔ Clean a ∧ Clean b := by
  unfold Clean
  constructor
  · intro h; exact ⟨fun c hc => h c (by simp [hc]), fun c hc => h c (by simp [hc])⟩
  · rintro ⟨h1, h2⟩ c hc
    rcases List.mem_append.1 hc with hc | hc
    · exact h1 c hc
    · exact h2 c hc

theorem clean_nl : Clean ['\n'] := by
  intro c hc
  rw [List.mem_singleton] at hc
  subst hc
  exact ⟨by decide, .inl rfl⟩

theorem ok_add {a b : Str} (ha : OkText a) (hb : OkText b) : OkText (a ++ b) := by
  obtain ⟨x, rfl, hx⟩ := ha
  obtain ⟨y, rfl, hy⟩ := hb
  exact ⟨x ++ ['\n'] ++ y, by simp, clean_append.2 ⟨clean_append.2 ⟨hx, clean_nl⟩, hy⟩⟩

theorem step_ok (c : St') (hc : Ok c) (p : Str) (hp : '\n' ∉ p) (hpc : Clean p) : Ok (step c (p ++ ['\n'])) := by
  obtain ⟨hb', ho⟩ := hc
  have hadd : ∀ cell, OkText (textOf cell) → ∀ cell' ∈ c.out ++ [cell], OkText (textOf cell') := by
    intro cell h cell' h'
    rcases List.mem_append.1 h' with h' | h'
    · exact ho _ h'
    · rw [List.mem_singleton.1 h']; exact h
  rcases hk : kind p with ⟨k, t⟩
  unfold step
  cases k with
  | some n =>
    rw [codeOf_some p ['\n'] hp (.inr rfl) n t hk]
    have ht : OkText (t ++ ['\n']) := by
      refine ⟨t, rfl, ?_⟩
      obtain ⟨e, -⟩ := kind_some p n t hk
      intro d hd
      exact hpc d (by rw [e]; simp [hd])
    dsimp only
    by_cases hb : c.buf = []
    · rw [if_pos hb]; exact ⟨.inr ht, ho⟩
    · rw [if_neg hb]
      have hbuf := hb'.resolve_left hb
      by_cases h1 : (c.py : Prop) ∧ c.num = some n
      · rw [if_pos h1]; exact ⟨.inr (ok_add hbuf ht), ho⟩
      · rw [if_neg h1]
        by_cases h2 : c.py = true
        · rw [if_pos h2]; exact ⟨.inr ht, hadd _ hbuf⟩
        · rw [if_neg h2]; exact ⟨.inr ht, hadd _ hbuf⟩
  | none =>
    rw [codeOf_none p ['\n'] (.inr rfl) t hk]
    have hl : OkText (p ++ ['\n']) := ⟨p, rfl, hpc⟩
    dsimp only
    by_cases hb : c.buf = []
    · rw [if_pos hb]; exact ⟨.inr hl, ho⟩
    · rw [if_neg hb]
      have hbuf := hb'.resolve_left hb
      by_cases h2 : c.py = false
      · rw [if_pos h2]
        by_cases h3 : p ++ ['\n'] = ['\n'] ∧ c.buf.drop (c.buf.length - 2) = ['\n', '\n']
        · rw [if_pos h3]
          refine ⟨.inl rfl, hadd _ ?_⟩
          have e : c.buf = c.buf.take (c.buf.length - 2) ++ ['\n', '\n'] := by
            rw [← h3.2, List.take_append_drop]
          obtain ⟨x, hx, hxc⟩ := hbuf
          have : x = c.buf.take (c.buf.length - 2) ++ ['\n'] := by
            have e2 : x ++ ['\n'] = (c.buf.take (c.buf.length - 2) ++ ['\n']) ++ ['\n'] := by rw [← hx]; rw [e]; simp
            exact List.append_cancel_right e2
          show OkText c.buf.dropLast
          rw [hx, List.dropLast_concat]
          rw [this] at hxc ⊢
          exact ⟨_, rfl, (clean_append.1 hxc).1⟩
        · rw [if_neg h3]; exact ⟨.inr (ok_add hbuf hl), ho⟩
      · rw [if_neg h2]; exact ⟨.inr hl, hadd _ hbuf⟩

theorem fold_ok (ps : List Str) (hps : ∀ p ∈ ps, '\n' ∉ p ∧ Clean p) (hlast : ps.getLast? = some []) (c : St') (hc : Ok c) :
    Ok ((linesOf ps).foldl step c) := by
  induction ps generalizing c with
  | nil => cases hlast
  | cons p ps ih =>
    cases ps with
    | nil =>
      simp at hlast
      subst hlast
      exact hc
    | cons q r =>
      rw [linesOf, List.foldl_cons]
      refine ih (fun p hp => hps p (List.mem_cons_of_mem _ hp)) ?_ _ (step_ok c hc p (hps p (by simp)).1 (hps p (by simp)).2)
      rw [← hlast]; simp

theorem mem_join (p : Str) (ps : List Str) (hp : p ∈ ps) (c : Char) (hc : c ∈ p) : c ∈ Str.join ['\n'] ps := by
  induction ps with
  | nil => cases hp
  | cons q ps ih =>
    rcases List.mem_cons.1 hp with rfl | hp
    · cases ps with
      | nil => exact hc
      | cons r ps => rw [Str.join_cons _ _ _ (by simp)]; simp [hc]
    · have := ih hp
      cases ps with
      | nil => cases hp
      | cons r ps => rw [Str.join_cons _ _ _ (by simp)]; simp only [List.mem_append]; exact .inr this

theorem cells_ok (text : Str) (hc : Clean (Lines.univ text)) (he : ∃ y, Lines.univ text = y ++ ['\n']) : ∀ c ∈ cells text, OkText (textOf c) := by
  have hps : ∀ p ∈ Str.split ['\n'] (Lines.univ text), '\n' ∉ p ∧ Clean p := by
    intro p hp
    refine ⟨Str.split_char_pieces '\n' _ p hp, ?_⟩
    intro c hcp
    apply hc
    rw [← Str.join_split ['\n'] (Lines.univ text) (by simp)]
    exact mem_join p _ hp c hcp
  have hlast : (Str.split ['\n'] (Lines.univ text)).getLast? = some [] := by
    obtain ⟨y, hy⟩ := he
    rw [hy]
    unfold Str.split
    rw [split_at]
    simp [Str.splitGo]
  have h := fold_ok _ hps hlast ⟨none, false, [], []⟩ ⟨.inl rfl, by simp⟩
  rw [← lines_split] at h
  intro c hcm
  unfold cells Lines.fileLines done at hcm
  obtain ⟨h1, h2⟩ := h
  split at hcm
  · exact h2 c hcm
  · rename_i hb
    rcases List.mem_append.1 hcm with hcm | hcm
    · exact h2 c hcm
    · have := h1.resolve_left hb
      rw [List.mem_singleton.1 hcm]
      split <;> exact this

/-- A text without the line ends it begins with and without the last one. -/
def trim (s : Str) : Str := (s.dropWhile (fun c => c = '\n')).dropLast

theorem pieces_trim (x : Str) : pieces (trim (x ++ ['\n'])) = pieces (x ++ ['\n']) := by
  unfold trim
  rw [← pieces_dropWhile (x ++ ['\n'])]
  generalize ht : (x ++ ['\n']).dropWhile (fun c => (c = '\n' : Bool)) = t
  have hsuf : t <:+ x ++ ['\n'] := by rw [← ht]; exact List.dropWhile_suffix _
  rcases List.eq_nil_or_concat t with rfl | ⟨u, d, rfl⟩
  · rfl
  · have hd : d = '\n' := by
      obtain ⟨w, hw⟩ := hsuf
      rw [List.concat_eq_append, ← List.append_assoc] at hw
      exact (List.append_inj' hw rfl).2 |> List.cons.inj |>.1
    subst hd
    rw [List.concat_eq_append, List.dropLast_concat, pieces_dropLast]

theorem mapM_some {α β : Type} (f : α → Option β) (g : α → β) (l : List α) (h : ∀ a ∈ l, f a = some (g a)) : l.mapM f = some (l.map g) := by
  induction l with
  | nil => rfl
  | cons a l ih =>
    rw [List.mapM_cons, h a List.mem_cons_self, ih (fun b hb => h b (List.mem_cons_of_mem _ hb))]
    rfl

/-- **C79 (part).** If the file ends with a line end and has no backslashes and control characters, then the source of every cell of the notebook is a list
of JSON strings. Read back, the cells contain the lines of the file that are not empty, in order, each in a cell of its kind, and the code cells are the runs
of lines of code. What is missing: other files (`C79_last_line`, `C79_backslash`). -/
theorem C79_notebook_partial (text : Str) (hc : Clean (Lines.univ text)) (he : ∃ y, Lines.univ text = y ++ ['\n']) :
    ∃ nb : List (Bool × Str), (cells text).mapM (fun c => (jtext (source (textOf c))).map (fun t => (isPy c, t))) = some nb ∧
      nb.flatMap (fun q => (pieces q.2).map (fun p => (q.1, p))) = content (Lines.univ text) ∧
      (nb.filter (fun q => q.1)).map (fun q => q.2) = (pyOf (runs (kinds (Lines.univ text)))).map trim := by
  have hok := cells_ok text hc he
  refine ⟨(cells text).map (fun c => (isPy c, trim (textOf c))), ?_, ?_, ?_⟩
  · apply mapM_some
    intro c hcm
    obtain ⟨x, hx, hxc⟩ := hok c hcm
    rw [hx, source_text x hxc]; rfl
  · rw [← C79_lines, List.flatMap_map]
    apply List.flatMap_congr
    intro c hcm
    obtain ⟨x, hx, hxc⟩ := hok c hcm
    dsimp only
    rw [hx, pieces_trim]
  · rw [← C79_code_cells, List.filter_map, List.map_map, pyTexts, List.map_map]
    rfl

/-- **C79 is false of the code** for a file that does not end with a line end: a single line of markdown loses its last 11 characters. -/
theorem C79_last_line (x : Str) (hne : x ≠ []) (hn : '\n' ∉ x) (hr : '\r' ∉ x) (hq : '"' ∉ x) (hk : (kind x).1 = none) :
    cells x = [.md x] ∧ preprocess x = x.take (x.length - 11) := by
  constructor
  · unfold cells Lines.fileLines
    rw [Lines.univ_id x hr, Lines.lines_last x hn hne]
    rcases hkk : kind x with ⟨k, t⟩
    rw [hkk] at hk
    dsimp only at hk
    subst hk
    have := codeOf_none x [] (.inl rfl) t hkk
    rw [List.append_nil] at this
    simp [step, this, startMd, done, hne]
  · unfold preprocess
    rw [replace_both]
    have h1 : x.dropWhile (fun c => (c = '\n' : Bool)) = x := by
      cases x with
      | nil => rfl
      | cons c x =>
        have : c ≠ '\n' := by rintro rfl; exact hn List.mem_cons_self
        rw [List.dropWhile_cons_of_neg (by simpa using this)]
    rw [h1]
    have h2 : enc x = x := by
      rw [enc_line x hn]
      unfold quote
      have : ∀ c ∈ x, (if c = '"' then ['\\', '"'] else [c]) = [c] := by
        intro c hc
        rw [if_neg]; rintro rfl; exact hq hc
      rw [List.flatMap_congr this]; simp
    rw [h2]

/-- A last line of three characters: what is written is no list of JSON strings. -/
theorem C79_last_line_invalid :
    cells "One line.\nEnd".toList = [.md "One line.\nEnd".toList] ∧ jtext (source "One line.\nEnd".toList) = none := by
  constructor <;> decide +kernel

/-- **C79 is false of the code** for backslashes: `print('a\n')` becomes something else in the notebook, and `'\d'` makes it unreadable. -/
theorem C79_backslash :
    (cells "[1]print('a\\n')\n".toList = [.py "print('a\\n')\n".toList] ∧ jtext (source "print('a\\n')\n".toList) = some "print('a\n')".toList) ∧
    (cells "[1]r'\\d'\n".toList = [.py "r'\\d'\n".toList] ∧ jtext (source "r'\\d'\n".toList) = none) := by
  refine ⟨⟨?_, ?_⟩, ?_, ?_⟩ <;> decide +kernel

/-! ## A file -/

def file1 : Str := "# Title\n\n\n\nSome \"text\".\n[1]a = 1\n[1]b = 2\n[2]a + b\nEnd.\n".toList

example : cells file1 = [.md "# Title\n".toList, .md "\nSome \"text\".\n".toList, .py "a = 1\nb = 2\n".toList, .py "a + b\n".toList, .md "End.\n".toList] := by
  decide +kernel
example : content file1 = [(false, "# Title".toList), (false, "Some \"text\".".toList), (true, "a = 1".toList), (true, "b = 2".toList), (true, "a + b".toList),
    (false, "End.".toList)] := by decide +kernel
example : jtext (source "Some \"text\".\nmore\n".toList) = some "Some \"text\".\nmore".toList := by decide +kernel
example : Lines.univ file1 = file1 ∧ (∃ y, file1 = y ++ ['\n']) := ⟨by decide +kernel, file1.dropLast, by decide +kernel⟩
example : Clean file1 := by unfold Clean; decide +kernel
example : (kind "Some markdown".toList).1 = none := by decide

end Verif.Props.MdToNb
