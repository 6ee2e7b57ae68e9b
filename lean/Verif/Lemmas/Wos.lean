import Verif.Model.Wos
import Verif.Spec.Wos

/-! # Lemmas about WOS records and files -/
set_option autoImplicit false
set_option linter.unusedSectionVars false
set_option linter.unusedSimpArgs false
namespace Verif.Model.Wos
open Verif.Py
open Verif.Spec.Wos (FieldOk FieldsOk)

theorem appendLast_concat (acc : Fields) (t : Str) (vs : List Str) (v : Str) :
    appendLast (acc ++ [(t, vs)]) v = acc ++ [(t, vs ++ [v])] := by
  simp [appendLast]

theorem parse_cont (acc : Fields) (t : Str) (done vs : List Str) (rest : List Str) :
    recordParser (acc ++ [(t, done)]) (vs.map (fun v => [' ', ' ', ' '] ++ v ++ ['\n']) ++ rest)
      = recordParser (acc ++ [(t, done ++ vs)]) rest := by
  induction vs generalizing done with
  | nil => simp
  | cons v vs ih =>
    rw [List.map_cons, List.cons_append, recordParser]
    have h1 : ¬ ([' ', ' ', ' '] ++ v ++ ['\n']).length < 3 := by simp
    have h2 : ([' ', ' ', ' '] ++ v ++ ['\n']).take 2 ≠ ['E', 'R'] := by simp
    have h3 : ¬ ([' ', ' ', ' '] ++ v ++ ['\n'])[2]? ≠ some ' ' := by simp
    have h4 : ([' ', ' ', ' '] ++ v ++ ['\n']).take 3 = [' ', ' ', ' '] := by simp
    have h5 : (([' ', ' ', ' '] ++ v ++ ['\n']).drop 3).dropLast = v := by simp
    rw [if_neg h1, if_neg h2, if_neg h3, if_pos h4, if_neg (by simp), h5, appendLast_concat, ih]
    simp

theorem parse_field (acc : Fields) (f : Str × List Str) (hf : FieldOk f) (rest : List Str) :
    recordParser acc (fieldLines f ++ rest) = recordParser (acc ++ [f]) rest := by
  obtain ⟨t, vs⟩ := f
  obtain ⟨a, b, rfl⟩ : ∃ a b, t = [a, b] := List.length_eq_two.1 hf.tagLen
  match vs, hf with
  | [], hf => exact absurd rfl hf.ne
  | v :: vs, hf =>
    simp only [fieldLines, List.cons_append]
    rw [recordParser]
    have h1 : ¬ (a :: b :: ' ' :: (v ++ ['\n'])).length < 3 := by simp
    have h2 : (a :: b :: ' ' :: (v ++ ['\n'])).take 2 ≠ ['E', 'R'] := by simpa using hf.tagER
    have h3 : ¬ (a :: b :: ' ' :: (v ++ ['\n']))[2]? ≠ some ' ' := by simp
    have h4 : (a :: b :: ' ' :: (v ++ ['\n'])).take 3 ≠ [' ', ' ', ' '] := by
      have := hf.tagBlank
      simp only [ne_eq, List.cons.injEq, and_true] at this
      simpa using this
    have h5 : ((a :: b :: ' ' :: (v ++ ['\n'])).drop 3).dropLast = v := by simp
    simp only [List.nil_append, List.cons_append] at h1 h2 h3 h4 h5 ⊢
    rw [if_neg h1, if_neg h2, if_neg h3, if_neg h4, h5]
    exact parse_cont acc [a, b] [v] vs rest

theorem parse_fields (acc fs : Fields) (hf : ∀ f ∈ fs, FieldOk f) (rest : List Str) :
    recordParser acc (fs.flatMap fieldLines ++ rest) = recordParser (acc ++ fs) rest := by
  induction fs generalizing acc with
  | nil => simp
  | cons f fs ih =>
    rw [List.flatMap_cons, List.append_assoc, parse_field acc f (hf f (by simp)),
      ih _ (fun g hg => hf g (List.mem_cons_of_mem _ hg))]
    simp

theorem parse_er (acc : Fields) (er : Str) (h3 : 3 ≤ er.length) (he : er.take 2 = ['E', 'R']) (rest : List Str) :
    recordParser acc (er :: rest) = (finish acc, rest) := by
  rw [recordParser, if_neg (by omega), if_pos he]

/-- Every line but the last is complete. -/
def AllButLast (ls : List Str) : Prop := ∀ pre l post, ls = pre ++ l :: post → post ≠ [] → ∃ x, l = x ++ ['\n'] ∧ '\n' ∉ x

theorem allButLast_lines (s : Str) : AllButLast (Lines.lines s) := by
  have hne : ∀ s : Str, s ≠ [] → Lines.lines s ≠ [] := by
    intro s hs h
    have := Lines.flatten_lines s
    rw [h] at this
    exact hs (by simpa using this.symm)
  induction s with
  | nil => intro pre l post h; simp [Lines.lines] at h
  | cons c s ih =>
    intro pre l post h hp
    rw [Lines.lines] at h
    split at h
    · cases pre with
      | nil =>
        simp at h
        exact ⟨[], by simp [← h.1], by simp⟩
      | cons a pre =>
        simp at h
        exact ih pre l post h.2 hp
    · rename_i hc
      split at h
      · cases pre with
        | nil => simp at h; exact absurd h.2 hp
        | cons a pre => simp at h
      · rename_i l0 ls0 h0
        cases pre with
        | nil =>
          simp at h
          obtain ⟨x, hx, hn⟩ := ih [] l0 ls0 h0 (by rw [h.2]; exact hp)
          refine ⟨c :: x, by rw [← h.1, hx]; rfl, ?_⟩
          simp only [List.mem_cons, not_or]
          exact ⟨fun e => hc e.symm, hn⟩
        | cons a pre =>
          simp at h
          exact ih (l0 :: pre) l post (by rw [h0, h.2]; rfl) hp

theorem AllButLast.tail {l : Str} {ls : List Str} (h : AllButLast (l :: ls)) : AllButLast ls :=
  fun pre x post e hp => h (l :: pre) x post (by rw [e]; rfl) hp

theorem AllButLast.suffix {pre ls : List Str} (h : AllButLast (pre ++ ls)) : AllButLast ls := by
  induction pre with
  | nil => exact h
  | cons a pre ih => exact ih h.tail

theorem fieldLines_snoc (t : Str) (vs : List Str) (v : Str) (h : vs ≠ []) :
    fieldLines (t, vs ++ [v]) = fieldLines (t, vs) ++ [[' ', ' ', ' '] ++ v ++ ['\n']] := by
  cases vs with
  | nil => exact absurd rfl h
  | cons a vs => simp [fieldLines]

/-- What a successful parse says about the lines. -/
theorem parse_ok (acc fs : Fields) (ls rest : List Str) (hl : AllButLast ls) (hacc : ∀ f ∈ acc, FieldOk f)
    (h : recordParser acc ls = (.ok fs, rest)) :
    FieldsOk fs ∧ ∃ er, 3 ≤ er.length ∧ er.take 2 = ['E', 'R'] ∧ acc.flatMap fieldLines ++ ls = fs.flatMap fieldLines ++ er :: rest := by
  induction ls generalizing acc with
  | nil => simp [recordParser] at h
  | cons l ls ih =>
    rw [recordParser] at h
    split at h
    · simp at h
    · rename_i h3
      split at h
      · rename_i he
        simp only [finish] at h
        split at h
        · rename_i hn
          obtain ⟨h1, h2⟩ := Prod.mk.inj h
          cases h1
          subst h2
          exact ⟨⟨hacc, hn⟩, l, by omega, he, rfl⟩
        · simp at h
      · rename_i he
        split at h
        · simp at h
        · rename_i hsp
          have hne : ls ≠ [] := by
            rintro rfl
            simp only [recordParser] at h
            split at h
            · split at h <;> simp at h
            · simp at h
          obtain ⟨x, hx, hxn⟩ := hl [] l ls rfl hne
          simp only [ne_eq, Decidable.not_not] at hsp
          have hlen : 3 ≤ x.length := by
            by_contra hc
            have hx2 : x.length = 2 := by
              rw [hx] at h3; simp at h3; omega
            rw [hx, List.getElem?_append_right (by omega), hx2] at hsp
            simp at hsp
          obtain ⟨a, b, c, v, rfl⟩ : ∃ a b c v, x = a :: b :: c :: v := by
            match x, hlen with
            | a :: b :: c :: v, _ => exact ⟨a, b, c, v, rfl⟩
          have hcs : c = ' ' := by rw [hx] at hsp; simpa using hsp
          subst hcs
          have hval : (l.drop 3).dropLast = v := by rw [hx]; simp
          have htag : l.take 2 = [a, b] := by rw [hx]; simp
          simp only [List.mem_cons, not_or] at hxn
          split at h
          · rename_i h4
            split at h
            · simp at h
            · rename_i hacc0
              obtain ⟨acc', f, rfl⟩ := List.eq_nil_or_concat acc |>.resolve_left hacc0
              obtain ⟨t, vs⟩ := f
              rw [List.concat_eq_append, appendLast_concat, hval] at h
              have hf := hacc (t, vs) (by simp)
              have hf' : FieldOk (t, vs ++ [v]) := ⟨hf.tagLen, hf.tagER, hf.tagBlank, by simp, hf.tagNL, by
                intro w hw
                rcases List.mem_append.1 hw with hw | hw
                · exact hf.valNL w hw
                · simp at hw; subst hw; exact hxn.2.2.2⟩
              obtain ⟨i1, er, i2, i3, i4⟩ := ih (acc' ++ [(t, vs ++ [v])]) hl.tail (by
                intro g hg
                rcases List.mem_append.1 hg with hg | hg
                · exact hacc g (by simp [hg])
                · simp at hg; subst hg; exact hf') h
              refine ⟨i1, er, i2, i3, ?_⟩
              rw [← i4, List.concat_eq_append, List.flatMap_append, List.flatMap_append, List.flatMap_singleton, List.flatMap_singleton,
                fieldLines_snoc t vs v hf.ne]
              have hl' : l = [' ', ' ', ' '] ++ v ++ ['\n'] := by
                rw [hx] at h4 ⊢
                simp at h4
                obtain ⟨rfl, rfl⟩ := h4
                rfl
              rw [hl']
              simp
          · rename_i h4
            rw [hval, htag] at h
            have hf' : FieldOk ([a, b], [v]) := by
              refine ⟨rfl, ?_, ?_, by simp, ?_, ?_⟩
              · rw [← htag]; exact he
              · intro e
                apply h4
                simp at e
                rw [hx]; simp [e]
              · simp only [List.mem_cons, List.not_mem_nil, or_false, not_or]
                exact ⟨hxn.1, hxn.2.1⟩
              · intro w hw
                simp at hw; subst hw; exact hxn.2.2.2
            obtain ⟨i1, er, i2, i3, i4⟩ := ih (acc ++ [([a, b], [v])]) hl.tail (by
              intro g hg
              rcases List.mem_append.1 hg with hg | hg
              · exact hacc g hg
              · simp at hg; subst hg; exact hf') h
            refine ⟨i1, er, i2, i3, ?_⟩
            rw [← i4, List.flatMap_append, hx]
            simp [fieldLines]

/-- The parser reads at least one line, and only from the front. -/
theorem parse_rest (acc : Fields) (l : Str) (ls : List Str) : ∃ pre, l :: ls = l :: pre ++ (recordParser acc (l :: ls)).2 := by
  induction ls generalizing acc l with
  | nil =>
    refine ⟨[], ?_⟩
    simp only [recordParser]
    repeat' split
    all_goals simp
  | cons m ls ih =>
    rw [recordParser]
    split
    · exact ⟨[], rfl⟩
    · split
      · exact ⟨[], rfl⟩
      · split
        · exact ⟨[], rfl⟩
        · split
          · split
            · exact ⟨[], rfl⟩
            · obtain ⟨pre, h⟩ := ih (appendLast acc (l.drop 3).dropLast) m
              exact ⟨m :: pre, by conv_lhs => rw [h]
                                  simp⟩
          · obtain ⟨pre, h⟩ := ih (acc ++ [(l.take 2, [(l.drop 3).dropLast])]) m
            exact ⟨m :: pre, by conv_lhs => rw [h]
                                simp⟩

theorem parse_rest_length (l : Str) (ls : List Str) : (recordParser [] (l :: ls)).2.length ≤ ls.length := by
  obtain ⟨pre, h⟩ := parse_rest [] l ls
  have := congrArg List.length h
  simp at this
  omega

theorem skipER_length (ls ls' : List Str) (h : skipER ls = some ls') : ls'.length < ls.length ∧ ∃ pre, ls = pre ++ ls' := by
  induction ls with
  | nil => simp [skipER] at h
  | cons s ls ih =>
    rw [skipER] at h
    split at h
    · cases h; exact ⟨by simp, [s], rfl⟩
    · obtain ⟨h1, pre, h2⟩ := ih h
      exact ⟨by simp; omega, s :: pre, by rw [h2]; rfl⟩

theorem loop_total (ws : Char → Bool) (n : Nat) (ls : List Str) (rs : List Rec) (h : ls.length < n) : loop ws n ls rs ≠ none := by
  induction n generalizing ls rs with
  | zero => omega
  | succ n ih =>
    cases ls with
    | nil => simp [loop]
    | cons l ls =>
      rw [loop]
      simp only [List.length_cons] at h
      split
      · exact ih ls rs (by omega)
      · split
        · simp
        · simp only []
          have hr := parse_rest_length l ls
          split
          · exact ih _ _ (by omega)
          · split
            · simp
            · rename_i ls' hs
              have := (skipER_length _ _ hs).1
              exact ih _ _ (by omega)
          · simp

theorem loop_mono (ws : Char → Bool) (n m : Nat) (ls : List Str) (rs : List Rec) (r : Res) (h : loop ws n ls rs = some r) (hm : n ≤ m) :
    loop ws m ls rs = some r := by
  induction n generalizing m ls rs with
  | zero => simp [loop] at h
  | succ n ih =>
    obtain ⟨m, rfl⟩ : ∃ k, m = k + 1 := ⟨m - 1, by omega⟩
    cases ls with
    | nil => simpa [loop] using h
    | cons l ls =>
      rw [loop] at h ⊢
      split
      · rename_i hs
        rw [if_pos hs] at h
        exact ih m ls rs h (by omega)
      · rename_i hs
        rw [if_neg hs] at h
        split
        · rename_i he
          rw [if_pos he] at h
          exact h
        · rename_i he
          rw [if_neg he] at h
          simp only [] at h ⊢
          cases hr : mkRec (recordParser [] (l :: ls)).1 with
          | ok r =>
            rw [hr] at h
            exact ih m _ _ h (by omega)
          | error e =>
            rw [hr] at h
            cases e with
            | badFile =>
              simp only [] at h ⊢
              cases hk : skipER (recordParser [] (l :: ls)).2 with
              | none => rw [hk] at h; exact h
              | some ls' =>
                rw [hk] at h
                exact ih m _ _ h (by omega)
            | badRecord => exact h
            | index => exact h

/-- The loop with enough rounds. -/
def run (ws : Char → Bool) (ls : List Str) (rs : List Rec) : Option Res := loop ws (ls.length + 1) ls rs

theorem run_eq (ws : Char → Bool) (n : Nat) (ls : List Str) (rs : List Rec) (h : ls.length < n) : loop ws n ls rs = run ws ls rs := by
  obtain ⟨r, hr⟩ := Option.ne_none_iff_exists'.1 (loop_total ws (ls.length + 1) ls rs (by omega))
  rw [run, hr]
  exact loop_mono ws _ _ ls rs r hr (by omega)

theorem run_nil (ws : Char → Bool) (rs : List Rec) : run ws [] rs = some ⟨rs, some .noEF, false⟩ := rfl

theorem run_cons (ws : Char → Bool) (l : Str) (ls : List Str) (rs : List Rec) :
    run ws (l :: ls) rs =
      if isSpace ws l then run ws ls rs
      else if l.take 2 = ['E', 'F'] then some ⟨rs, if ls = [] then none else some .afterEF, false⟩
      else match mkRec (recordParser [] (l :: ls)).1 with
        | .ok r => run ws (recordParser [] (l :: ls)).2 (addRec rs r)
        | .error .badFile =>
          match skipER (recordParser [] (l :: ls)).2 with
          | none => some ⟨rs, some .noEF, false⟩
          | some ls' => run ws ls' rs
        | .error _ => some ⟨rs, none, true⟩ := by
  have hr := parse_rest_length l ls
  rw [run, List.length_cons, loop]
  split
  · exact run_eq ws _ _ _ (by omega)
  · split
    · rfl
    · simp only []
      cases mkRec (recordParser [] (l :: ls)).1 with
      | ok r => exact run_eq ws _ _ _ (by omega)
      | error e =>
        cases e with
        | badFile =>
          simp only []
          cases hk : skipER (recordParser [] (l :: ls)).2 with
          | none => rfl
          | some ls' =>
            have := (skipER_length _ _ hk).1
            exact run_eq ws _ _ _ (by omega)
        | badRecord => rfl
        | index => rfl

/-- Records which are read in one piece. -/
theorem run_record (ws : Char → Bool) (r : Rec) (ls rest : List Str) (rs : List Rec)
    (l0 : Str) (ls0 : List Str) (hls : ls = l0 :: ls0) (hsp : isSpace ws l0 = false) (hef : l0.take 2 ≠ ['E', 'F'])
    (hp : recordParser [] ls = (.ok r.fields, rest)) (hr : mkRec (.ok r.fields) = .ok r) :
    run ws ls rs = run ws rest (addRec rs r) := by
  subst hls
  rw [run_cons, hsp, if_neg (by simp), if_neg hef, hp]
  simp only [hr]

end Verif.Model.Wos
