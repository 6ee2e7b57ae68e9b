import Verif.Lemmas.ProgressThread
import Mathlib.Tactic.Linarith
import Mathlib.Algebra.Order.Field.Basic

/-! # C92: the progress bar and its thread -/
set_option autoImplicit false
set_option linter.unusedSimpArgs false
namespace Verif.Props.ProgressThread
open Verif.Py Verif.Model.ProgressBar Verif.Model.ProgressThread Verif.Spec.ProgressThread Verif.Lemmas.ProgressThread

variable (large : Rat → Int → Bool)

/-- Everything these pictures show was given by the program, or when the bar was made; and if the parts done that it gives never go back, neither do those that are shown. -/
structure Shows (p0 : Rat) (t0 : Str) (ops : List Op) (ps : List Picture) : Prop where
  pers : ∀ pic ∈ ps, ∀ p ∈ pic.pers, p ∈ p0 :: opPers ops
  texts : ∀ pic ∈ ps, ∀ t ∈ pic.texts, t ∈ t0 :: opTexts ops
  order : (p0 :: opPers ops).Pairwise (· ≤ ·) → (ps.map Picture.per).Pairwise (· ≤ ·)

private theorem shows_of_inv {p0 : Rat} {t0 : Str} {ops : List Op} {s : State} {ps : List Picture} {mid : List Rat} {part tail : List Str}
    (h : Inv large p0 t0 ops s ps mid part tail) : Shows p0 t0 ops ps where
  pers := fun pic hp => (h.pers pic hp).1
  texts := fun pic hp => (h.pers pic hp).2
  order := fun ho => by
    have := h.order ho
    rw [List.append_assoc, List.pairwise_append] at this
    exact this.1

/-- Which operations have been begun, and that one of those that close the bar has set `finished` or is about to. -/
private theorem begun (dummy : Bool) (p0 : Rat) (t0 : Str) (ops : List Op) (hd : dummy = false) (s : State) (h : Reach large dummy (start dummy p0 t0 ops) s) :
    ∃ done, ops = done ++ s.rest ∧ (done.any Op.closes = true → s.sh.finished = true ∨ Instr.setFinished ∈ s.cur ∨ Instr.leave ∈ s.cur) := by
  subst hd
  induction h with
  | refl => exact ⟨[], rfl, fun h => by cases h⟩
  | @tail b c _ hstep ih =>
    obtain ⟨done, e, hdone⟩ := ih
    cases hstep with
    | thread columns clock _ hne =>
      refine ⟨done, e, fun hc => ?_⟩
      have hfin : (threadStep large columns clock b.sh b.thread).1.finished = b.sh.finished := by
        cases b.thread <;> simp only [threadStep, Shared.write]
        split <;> rfl
      show (threadStep large columns clock b.sh b.thread).1.finished = true ∨ _
      rw [hfin]; exact hdone hc
    | main columns clock _ _ hs =>
      obtain ⟨sh, th, cur, rest⟩ := b
      cases cur with
      | nil =>
        cases rest with
        | nil => simp [mainStep] at hs
        | cons op ops' =>
          simp only [mainStep, Option.some.injEq] at hs
          subst hs
          refine ⟨done ++ [op], by simpa using e, fun hc => ?_⟩
          rw [List.any_append, Bool.or_eq_true] at hc
          rcases hc with hc | hc
          · rcases hdone hc with h' | h' | h'
            · exact Or.inl h'
            · cases h'
            · cases h'
          · cases op with
            | update p t => simp [Op.closes] at hc
            | finish t => exact Or.inr (Or.inl List.mem_cons_self)
            | leave => exact Or.inr (Or.inr List.mem_cons_self)
      | cons i c' =>
        have key : ∀ c'' : List Instr, (i ≠ .setFinished ∧ i ≠ .leave ∧ c'' = c') →
            (done.any Op.closes = true → sh.finished = true ∨ Instr.setFinished ∈ c'' ∨ Instr.leave ∈ c'') := by
          rintro c'' ⟨h1, h2, rfl⟩ hc
          rcases hdone hc with h' | h' | h'
          · exact Or.inl h'
          · rcases List.mem_cons.1 h' with h' | h'
            · exact absurd h'.symm h1
            · exact Or.inr (Or.inl h')
          · rcases List.mem_cons.1 h' with h' | h'
            · exact absurd h'.symm h2
            · exact Or.inr (Or.inr h')
        cases i with
        | setPer p => simp only [mainStep, Option.some.injEq] at hs; subst hs; exact ⟨done, e, key c' ⟨by simp, by simp, rfl⟩⟩
        | setText p => simp only [mainStep, Option.some.injEq] at hs; subst hs; exact ⟨done, e, key c' ⟨by simp, by simp, rfl⟩⟩
        | setFinished => simp only [mainStep, Option.some.injEq] at hs; subst hs; exact ⟨done, e, fun _ => Or.inl rfl⟩
        | join =>
          simp only [mainStep] at hs
          by_cases he : th = .ended
          · rw [if_pos he, Option.some.injEq] at hs; subst hs; exact ⟨done, e, key c' ⟨by simp, by simp, rfl⟩⟩
          · rw [if_neg he] at hs; cases hs
        | write p => simp only [mainStep, Option.some.injEq] at hs; subst hs; exact ⟨done, e, key c' ⟨by simp, by simp, rfl⟩⟩
        | writeLast => simp only [mainStep, Option.some.injEq] at hs; subst hs; exact ⟨done, e, key c' ⟨by simp, by simp, rfl⟩⟩
        | leave =>
          simp only [mainStep] at hs
          cases hf : sh.finished with
          | true => rw [if_pos hf, Option.some.injEq] at hs; subst hs; exact ⟨done, e, fun _ => Or.inl hf⟩
          | false =>
            rw [if_neg (by rw [hf]; simp), Option.some.injEq] at hs; subst hs
            exact ⟨done, e, fun _ => Or.inr (Or.inl List.mem_cons_self)⟩

/-- C92: once `finish` has returned or the `with` statement has been left, the thread has ended, whatever the interleaving. -/
theorem C92_closed (p0 : Rat) (t0 : Str) (before after : List Op) (op : Op) (hop : Op.closes op = true) (s : State)
    (h : Reach large false (start false p0 t0 (before ++ op :: after)) s) (hcur : s.cur = []) (hrest : s.rest.length ≤ after.length) :
    s.thread = .ended ∧ s.sh.finished = true := by
  obtain ⟨ps, mid, part, tail, hi⟩ := inv_reach large p0 t0 _ s h
  obtain ⟨done, e, hd⟩ := begun large false p0 t0 _ rfl s h
  have hmem : done.any Op.closes = true := by
    have hlen : before.length < done.length := by
      have := congrArg List.length e
      simp only [List.length_append, List.length_cons] at this
      omega
    rw [List.any_eq_true]
    refine ⟨op, ?_, hop⟩
    have h1 : (done ++ s.rest)[before.length]? = some op := by rw [← e]; simp
    rw [List.getElem?_append_left hlen] at h1
    exact List.mem_of_getElem? h1
  have hf : s.sh.finished = true := by
    rcases hd hmem with h' | h' | h'
    · exact h'
    · rw [hcur] at h'; cases h'
    · rw [hcur] at h'; cases h'
  have := hi.safe
  rw [hcur] at this
  exact ⟨by simpa using this hf, hf⟩

/-- C92, part: when a program that closes its bar is done, the thread has ended and nothing more can happen. What was written are whole pictures of the bar, followed by what the main program
writes itself: the last line and a new line for `finish`, or a new line when the `with` statement is left without it. The pictures show only what the program gave, and never go back if it does not.
Missing: programs that do not close their bar, for which it fails (`C92_unclosed`, `C92_edge_list`). -/
theorem C92_output_partial (p0 : Rat) (t0 : Str) (ops : List Op) (hops : ∃ op ∈ ops, Op.closes op = true) (s : State)
    (h : Reach large false (start false p0 t0 ops) s) (hcur : s.cur = []) (hrest : s.rest = []) :
    s.thread = .ended ∧ (¬ ∃ s', Step large false s s') ∧
    ∃ ps tail, s.sh.out = pictures large ps ++ tail ∧ Ending large false ops tail ∧ Shows p0 t0 ops ps := by
  obtain ⟨op, hmem, hop⟩ := hops
  obtain ⟨before, after, rfl⟩ := List.append_of_mem hmem
  have hend := (C92_closed large p0 t0 before after op hop s h hcur (by simp [hrest])).1
  obtain ⟨ps, mid, part, tail, hi⟩ := inv_reach large p0 t0 _ s h
  refine ⟨hend, ?_, ps, tail, ?_, ?_, shows_of_inv large hi⟩
  · rintro ⟨s', hs⟩
    cases hs with
    | thread columns clock _ hne => exact hne hend
    | main columns clock _ _ hm => simp [mainStep, hcur, hrest] at hm
  · have hpc := hi.pc
    rw [hend] at hpc
    have := hi.out
    rw [hpc.2, List.append_nil] at this
    exact this
  · have := hi.rem [] (by rw [hcur, hrest]; exact .nil _)
    rwa [List.append_nil] at this

/-- C92: at every moment, whatever the interleaving, what has been written are whole pictures, possibly the beginning of another one, and then what the main program has
written itself; this it does only when the thread has ended, so the two never get mixed. -/
theorem C92_moment (p0 : Rat) (t0 : Str) (ops : List Op) (s : State) (h : Reach large false (start false p0 t0 ops) s) :
    ∃ ps part tail, s.sh.out = pictures large ps ++ part ++ tail ∧ Shows p0 t0 ops ps ∧ (part = [] ∨ part = [['\r']]) ∧
      (tail ≠ [] → s.thread = .ended ∧ part = []) := by
  obtain ⟨ps, mid, part, tail, hi⟩ := inv_reach large p0 t0 _ s h
  have hpc := hi.pc
  refine ⟨ps, part, tail, hi.out, shows_of_inv large hi, ?_, fun ht => ?_⟩
  · cases hth : s.thread <;> rw [hth] at hpc <;> simp only [PcOk] at hpc
    · exact Or.inl hpc.2
    · exact Or.inl hpc.2
    · exact Or.inl hpc.2
    · exact Or.inr hpc.2
    · exact Or.inr hpc.2.1
    · exact Or.inr hpc.2.1
    · exact Or.inr hpc.2.1
    · exact Or.inr hpc.1
    · exact Or.inl hpc.2
    · exact Or.inl hpc.2
  · by_cases hne : s.thread = .ended
    · rw [hne] at hpc
      exact ⟨hne, hpc.2⟩
    · exact absurd (hi.noTail hne) ht

/-- The thread on its own for some steps, with what it finds as widths and times. -/
def threadRun : List (Int × Rat) → State → State
  | [], s => s
  | i :: is, s => threadRun is { s with sh := (threadStep large i.1 i.2 s.sh s.thread).1, thread := (threadStep large i.1 i.2 s.sh s.thread).2 }

/-- How many steps the thread still takes when it has been told to end. -/
private def left : Pc → Nat
  | .size => 9 | .cr _ => 8 | .percent _ => 7 | .length _ _ => 6 | .choose _ _ _ => 5 | .layout _ _ => 4 | .emit _ => 3 | .pause => 2 | .check => 1 | .ended => 0

private theorem left_step (i : Int × Rat) (sh : Shared) (th : Pc) (hf : sh.finished = true) :
    (threadStep large i.1 i.2 sh th).1.finished = true ∧ left (threadStep large i.1 i.2 sh th).2 ≤ left th - 1 := by
  cases th with
  | choose c p q => simp only [threadStep]; split <;> exact ⟨hf, by simp [left]⟩
  | check => simp [threadStep, hf, left]
  | _ => exact ⟨hf, by simp [threadStep, left]⟩

private theorem run_left (is : List (Int × Rat)) (s : State) (hf : s.sh.finished = true) : left (threadRun large is s).thread ≤ left s.thread - is.length := by
  induction is generalizing s with
  | nil => exact Nat.le_refl _
  | cons i is ih =>
    have h1 := left_step large i s.sh s.thread hf
    refine Nat.le_trans (ih _ h1.1) ?_
    have := h1.2
    simp only [List.length_cons]
    omega

private theorem run_reach (is : List (Int × Rat)) (s : State) (dummy : Bool) : Reach large dummy s (threadRun large is s) := by
  induction is generalizing s with
  | nil => exact Relation.ReflTransGen.refl
  | cons i is ih =>
    by_cases he : s.thread = .ended
    · have : { s with sh := (threadStep large i.1 i.2 s.sh s.thread).1, thread := (threadStep large i.1 i.2 s.sh s.thread).2 } = s := by
        obtain ⟨sh, th, c, r⟩ := s
        simp only at he
        subst he
        rfl
      show Reach large dummy s (threadRun large is _)
      rw [this]; exact ih s
    · exact Relation.ReflTransGen.head (Step.thread i.1 i.2 s he) (ih _)

/-- C92: the main program never waits for long: where it waits for the thread, the thread has been told to end, and does after at most nine steps of its own, whatever they find. -/
theorem C92_wait (p0 : Rat) (t0 : Str) (ops : List Op) (s : State) (h : Reach large false (start false p0 t0 ops) s) (c : List Instr) (hcur : s.cur = .join :: c)
    (is : List (Int × Rat)) (hlen : 9 ≤ is.length) :
    s.sh.finished = true ∧ (threadRun large is s).thread = .ended ∧ (threadRun large is s).cur = s.cur ∧
    ∀ columns clock, ∃ s', mainStep large false columns clock (threadRun large is s) = some s' ∧ s'.cur = c := by
  obtain ⟨ps, mid, part, tail, hi⟩ := inv_reach large p0 t0 _ s h
  have hsafe := hi.safe
  rw [hcur] at hsafe
  have hf := hsafe.1
  have h9 : left s.thread ≤ 9 := by cases s.thread <;> simp [left]
  have h0 : left (threadRun large is s).thread = 0 := by
    have := run_left large is s hf
    omega
  have he : (threadRun large is s).thread = .ended := by
    cases hth : (threadRun large is s).thread <;> rw [hth] at h0 <;> first | rfl | (simp [left] at h0)
  have hc : ∀ (is : List (Int × Rat)) (s : State), (threadRun large is s).cur = s.cur := by
    intro is
    induction is with
    | nil => intro s; rfl
    | cons i is ih => intro s; exact ih _
  refine ⟨hf, he, hc is s, fun columns clock => ?_⟩
  have hc' : (threadRun large is s).cur = .join :: c := (hc is s).trans hcur
  refine ⟨{ threadRun large is s with cur := c }, ?_, rfl⟩
  unfold mainStep
  rw [hc']
  simp only [he, if_true]

/-- C92: there is no deadlock: until the main program is done, one of the two can go on. -/
theorem C92_no_deadlock (p0 : Rat) (t0 : Str) (ops : List Op) (s : State) (_h : Reach large false (start false p0 t0 ops) s) (hmore : s.cur ≠ [] ∨ s.rest ≠ []) :
    ∃ s', Step large false s s' := by
  by_cases he : s.thread = .ended
  · suffices hm : ∃ s', mainStep large false 0 0 s = some s' by
      obtain ⟨s', hs⟩ := hm
      exact ⟨s', .main 0 0 s s' hs⟩
    obtain ⟨sh, th, cur, rest⟩ := s
    simp only at he
    subst he
    cases cur with
    | nil =>
      cases rest with
      | nil => simp at hmore
      | cons op ops' => exact ⟨_, rfl⟩
    | cons i c =>
      cases i with
      | leave =>
        simp only [mainStep]
        split <;> exact ⟨_, rfl⟩
      | _ => exact ⟨_, rfl⟩
  · exact ⟨_, .thread 0 0 s he⟩

/-- C92: in quiet mode nothing is ever written. -/
theorem C92_quiet (p0 : Rat) (t0 : Str) (ops : List Op) (s : State) (h : Reach large true (start true p0 t0 ops) s) : s.sh.out = [] := by
  suffices hx : s.sh.out = [] ∧ s.thread = .ended ∧ ∀ i ∈ s.cur, (∃ p, i = .setPer p) ∨ ∃ t, i = .setText t from hx.1
  induction h with
  | refl => exact ⟨rfl, rfl, fun _ h => by cases h⟩
  | @tail b c _ hstep ih =>
    obtain ⟨h1, h2, h3⟩ := ih
    cases hstep with
    | thread columns clock _ hne => exact absurd h2 hne
    | main columns clock _ _ hs =>
      obtain ⟨sh, th, cur, rest⟩ := b
      cases cur with
      | nil =>
        cases rest with
        | nil => simp [mainStep] at hs
        | cons op ops' =>
          simp only [mainStep, Option.some.injEq] at hs
          subst hs
          refine ⟨h1, h2, ?_⟩
          intro i hi
          cases op with
          | update p t =>
            cases t with
            | none =>
              have : i = .setPer p := by simpa [compile] using hi
              exact Or.inl ⟨p, this⟩
            | some t =>
              have : i = .setPer p ∨ i = .setText t := by simpa [compile] using hi
              rcases this with h | h
              · exact Or.inl ⟨p, h⟩
              · exact Or.inr ⟨t, h⟩
          | finish t => simp [compile] at hi
          | leave => simp [compile] at hi
      | cons i c' =>
        rcases h3 i List.mem_cons_self with ⟨p, rfl⟩ | ⟨t, rfl⟩
        · simp only [mainStep, Option.some.injEq] at hs; subst hs
          exact ⟨h1, h2, fun j hj => h3 j (List.mem_cons_of_mem _ hj)⟩
        · simp only [mainStep, Option.some.injEq] at hs; subst hs
          exact ⟨h1, h2, fun j hj => h3 j (List.mem_cons_of_mem _ hj)⟩

/-- C92, what goes wrong: a program that does not close its bar, as happens when an error interrupts one that does not use `with`, leaves a thread behind that never ends and never stops writing. -/
theorem C92_unclosed (p0 : Rat) (t0 : Str) (ops : List Op) (hops : ∀ op ∈ ops, Op.closes op = false) (s : State) (h : Reach large false (start false p0 t0 ops) s) :
    s.thread ≠ .ended ∧ ∀ n, ∃ s', Reach large false s s' ∧ s'.cur = s.cur ∧ s'.rest = s.rest ∧ s'.sh.out.length ≥ s.sh.out.length + n := by
  have hinv : s.sh.finished = false ∧ s.thread ≠ .ended ∧ (∀ i ∈ s.cur, (∃ p, i = .setPer p) ∨ ∃ t, i = .setText t) ∧ ∀ op ∈ s.rest, Op.closes op = false := by
    induction h with
    | refl => exact ⟨rfl, by simp [start], (fun _ h => by cases h), hops⟩
    | @tail b c _ hstep ih =>
      obtain ⟨h1, h2, h3, h4⟩ := ih
      cases hstep with
      | thread columns clock _ hne =>
        refine ⟨?_, ?_, h3, h4⟩
        · show (threadStep large columns clock b.sh b.thread).1.finished = false
          cases b.thread <;> simp only [threadStep, Shared.write, h1]
          split <;> exact h1
        · show (threadStep large columns clock b.sh b.thread).2 ≠ .ended
          cases hb : b.thread <;> simp only [threadStep, Shared.write, h1, Bool.false_eq_true, if_false, ne_eq, not_false_eq_true, reduceCtorEq]
          · split <;> simp
          · exact fun _ => h2 hb
      | main columns clock _ _ hs =>
        obtain ⟨sh, th, cur, rest⟩ := b
        cases cur with
        | nil =>
          cases rest with
          | nil => simp [mainStep] at hs
          | cons op ops' =>
            simp only [mainStep, Option.some.injEq] at hs
            subst hs
            refine ⟨h1, h2, ?_, fun o ho => h4 o (List.mem_cons_of_mem _ ho)⟩
            intro i hi
            have hop := h4 op List.mem_cons_self
            cases op with
            | update p t =>
              cases t with
              | none =>
                have : i = .setPer p := by simpa [compile] using hi
                exact Or.inl ⟨p, this⟩
              | some t =>
                have : i = .setPer p ∨ i = .setText t := by simpa [compile] using hi
                rcases this with h | h
                · exact Or.inl ⟨p, h⟩
                · exact Or.inr ⟨t, h⟩
            | finish t => cases hop
            | leave => cases hop
        | cons i c' =>
          rcases h3 i List.mem_cons_self with ⟨p, rfl⟩ | ⟨t, rfl⟩
          · simp only [mainStep, Option.some.injEq] at hs; subst hs
            exact ⟨h1, h2, fun j hj => h3 j (List.mem_cons_of_mem _ hj), h4⟩
          · simp only [mainStep, Option.some.injEq] at hs; subst hs
            exact ⟨h1, h2, fun j hj => h3 j (List.mem_cons_of_mem _ hj), h4⟩
  obtain ⟨hf, hne, -, -⟩ := hinv
  refine ⟨hne, ?_⟩
  -- one step of the thread, which keeps `finished`
  have one : ∀ s : State, s.sh.finished = false → s.thread ≠ .ended → ∃ s', Reach large false s s' ∧ s'.cur = s.cur ∧ s'.rest = s.rest ∧ s'.sh.finished = false ∧ s'.thread ≠ .ended ∧
      s'.sh.out.length ≥ s.sh.out.length + 1 := by
    intro s hf hne
    obtain ⟨sh, th, cur, rest⟩ := s
    simp only at hf hne
    have stp : ∀ (sh : Shared) (th : Pc), th ≠ .ended → Step large false ⟨sh, th, cur, rest⟩ ⟨(threadStep large 0 0 sh th).1, (threadStep large 0 0 sh th).2, cur, rest⟩ :=
      fun sh th h => .thread 0 0 ⟨sh, th, cur, rest⟩ h
    have hcr : ∀ c, Reach large false ⟨sh, .cr c, cur, rest⟩ ⟨sh.write ['\r'], .percent c, cur, rest⟩ := fun c => .single (stp sh (.cr c) (by simp))
    have hsize : Reach large false ⟨sh, .size, cur, rest⟩ ⟨sh.write ['\r'], .percent 0, cur, rest⟩ := .head (stp sh .size (by simp)) (hcr 0)
    have hcheck : Reach large false ⟨sh, .check, cur, rest⟩ ⟨sh.write ['\r'], .percent 0, cur, rest⟩ := by
      have := stp sh .check (by simp)
      simp only [threadStep, hf, Bool.false_eq_true, if_false] at this
      exact .head this hsize
    have hpause : Reach large false ⟨sh, .pause, cur, rest⟩ ⟨sh.write ['\r'], .percent 0, cur, rest⟩ := .head (stp sh .pause (by simp)) hcheck
    have hemit : ∀ l, Reach large false ⟨sh, .emit l, cur, rest⟩ ⟨sh.write l, .pause, cur, rest⟩ := fun l => .single (stp sh (.emit l) (by simp))
    have hlayout : ∀ c p, ∃ l, Reach large false ⟨sh, .layout c p, cur, rest⟩ ⟨sh.write l, .pause, cur, rest⟩ := fun c p => ⟨_, .head (stp sh (.layout c p) (by simp)) (hemit _)⟩
    have hchoose : ∀ c p q, ∃ l, Reach large false ⟨sh, .choose c p q, cur, rest⟩ ⟨sh.write l, .pause, cur, rest⟩ := by
      intro c p q
      have h1 := stp sh (.choose c p q) (by simp)
      by_cases ht : sh.text ≠ []
      · simp only [threadStep, if_pos ht] at h1
        obtain ⟨l, hl⟩ := hlayout c p
        exact ⟨l, .head h1 hl⟩
      · simp only [threadStep, if_neg ht] at h1
        exact ⟨_, .head h1 (hemit _)⟩
    have hlength : ∀ c p, ∃ l, Reach large false ⟨sh, .length c p, cur, rest⟩ ⟨sh.write l, .pause, cur, rest⟩ := by
      intro c p
      obtain ⟨l, hl⟩ := hchoose c p sh.per
      exact ⟨l, .head (stp sh (.length c p) (by simp)) hl⟩
    have hpercent : ∀ c, ∃ l, Reach large false ⟨sh, .percent c, cur, rest⟩ ⟨sh.write l, .pause, cur, rest⟩ := by
      intro c
      obtain ⟨l, hl⟩ := hlength c sh.per
      exact ⟨l, .head (stp sh (.percent c) (by simp)) hl⟩
    have fin : ∀ (l : Str) (pc : Pc), pc ≠ .ended → Reach large false ⟨sh, th, cur, rest⟩ ⟨sh.write l, pc, cur, rest⟩ →
        ∃ s', Reach large false ⟨sh, th, cur, rest⟩ s' ∧ s'.cur = cur ∧ s'.rest = rest ∧ s'.sh.finished = false ∧ s'.thread ≠ .ended ∧ s'.sh.out.length ≥ sh.out.length + 1 :=
      fun l pc hpc hr => ⟨_, hr, rfl, rfl, hf, hpc, by simp [Shared.write]⟩
    cases th with
    | check => exact fin _ _ (by simp) hcheck
    | size => exact fin _ _ (by simp) hsize
    | cr c => exact fin _ _ (by simp) (hcr c)
    | percent c => obtain ⟨l, hl⟩ := hpercent c; exact fin l _ (by simp) hl
    | length c p => obtain ⟨l, hl⟩ := hlength c p; exact fin l _ (by simp) hl
    | choose c p q => obtain ⟨l, hl⟩ := hchoose c p q; exact fin l _ (by simp) hl
    | layout c p => obtain ⟨l, hl⟩ := hlayout c p; exact fin l _ (by simp) hl
    | emit l => exact fin l _ (by simp) (hemit l)
    | pause => exact fin _ _ (by simp) hpause
    | ended => exact absurd rfl hne
  intro n
  suffices hx : ∃ s', Reach large false s s' ∧ s'.cur = s.cur ∧ s'.rest = s.rest ∧ s'.sh.finished = false ∧ s'.thread ≠ .ended ∧ s'.sh.out.length ≥ s.sh.out.length + n by
    obtain ⟨s', a, b, c, -, -, d⟩ := hx
    exact ⟨s', a, b, c, d⟩
  clear h
  induction n with
  | zero => exact ⟨s, Relation.ReflTransGen.refl, rfl, rfl, hf, hne, Nat.le_refl _⟩
  | succ n ih =>
    obtain ⟨s1, r1, c1, d1, f1, n1, l1⟩ := ih
    obtain ⟨s2, r2, c2, d2, f2, n2, l2⟩ := one s1 f1 n1
    exact ⟨s2, r1.trans r2, c2.trans c1, d2.trans d1, f2, n2, by omega⟩

/-! ## Files of edges and nodes -/

/-- C92, which calls of `writeEdgeList` and `writeNodeAttributeFile` close the bar they make: those for a graph with edges or nodes that is written with the options left as they are. With any other, above all
for a graph with nothing to write, the thread is left behind. -/
theorem C92_edge_list (extraInfo allSame : Bool) (n : Nat) (name : Str) (checking writing : Nat → Str) :
    ((∃ op ∈ edgeListOps extraInfo allSame n name checking writing, Op.closes op = true) ↔ 1 ≤ n ∧ extraInfo = true ∧ allSame = false) ∧
    ((∃ op ∈ nodeListOps allSame n name checking writing, Op.closes op = true) ↔ 1 ≤ n ∧ allSame = false) ∧
    (∀ t0 s, Reach large false (start false 0 t0 (edgeListOps extraInfo allSame 0 name checking writing)) s ∨
        Reach large false (start false 0 t0 (nodeListOps allSame 0 name checking writing)) s →
      s.thread ≠ .ended ∧ ∀ m, ∃ s', Reach large false s s' ∧ s'.sh.out.length ≥ s.sh.out.length + m) := by
  refine ⟨?_, ?_, ?_⟩
  · unfold edgeListOps
    by_cases h : n < 1
    · rw [if_pos h]
      simp [Op.closes]
      omega
    · rw [if_neg h]
      have h' : 1 ≤ n := by omega
      cases extraInfo with
      | false => simp [Op.closes]
      | true =>
        cases allSame with
        | true => simp
        | false =>
          simp only [Bool.true_eq_false, Bool.false_eq_true, if_false]
          exact ⟨fun _ => ⟨h', by simp⟩, fun _ => ⟨_, List.mem_append_right _ (List.mem_cons_of_mem _ List.mem_cons_self), rfl⟩⟩
  · unfold nodeListOps
    by_cases h : n < 1
    · rw [if_pos h]
      simp [Op.closes]
      omega
    · rw [if_neg h]
      have h' : 1 ≤ n := by omega
      cases allSame with
      | true => simp
      | false =>
        simp only [Bool.false_eq_true, if_false]
        exact ⟨fun _ => ⟨h', by simp⟩, fun _ => ⟨_, List.mem_append_right _ (List.mem_cons_of_mem _ List.mem_cons_self), rfl⟩⟩
  · intro t0 s hs
    rcases hs with hs | hs
    · obtain ⟨h1, h2⟩ := C92_unclosed large 0 t0 _ (by intro op hop; simp [edgeListOps] at hop; subst hop; rfl) s hs
      exact ⟨h1, fun m => by obtain ⟨s', a, -, -, b⟩ := h2 m; exact ⟨s', a, b⟩⟩
    · obtain ⟨h1, h2⟩ := C92_unclosed large 0 t0 _ (by intro op hop; simp [nodeListOps] at hop; subst hop; rfl) s hs
      exact ⟨h1, fun m => by obtain ⟨s', a, -, -, b⟩ := h2 m; exact ⟨s', a, b⟩⟩

private theorem every_mem {k n : Nat} {f : Nat → Op} {op : Op} (h : op ∈ every k n f) : ∃ c, c ≤ n ∧ op = f c := by
  unfold every at h
  obtain ⟨i, hi, h⟩ := List.mem_filterMap.1 h
  rw [List.mem_range] at hi
  split at h
  · cases h; exact ⟨i + 1, hi, rfl⟩
  · cases h

private theorem part_bounds {c n : Nat} (hn : 1 ≤ n) (hc : c ≤ n) : (0 : Rat) ≤ (c : Rat) / n ∧ (c : Rat) / n ≤ 1 := by
  have hn' : (0 : Rat) < n := by exact_mod_cast hn
  refine ⟨div_nonneg (by exact_mod_cast Nat.zero_le c) hn'.le, ?_⟩
  rw [div_le_one hn']
  exact_mod_cast hc

/-- C92, the parts done that these functions give: whatever the number of edges or nodes, they are from 0 to 1, so that no bar is drawn beyond its end; and a bar that is closed was at 1. -/
theorem C92_parts (extraInfo allSame : Bool) (n : Nat) (name : Str) (checking writing : Nat → Str) (ops : List Op)
    (h : ops = edgeListOps extraInfo allSame n name checking writing ∨ ops = nodeListOps allSame n name checking writing) :
    (∀ p s, Op.update p s ∈ ops → 0 ≤ p ∧ p ≤ 1) ∧ (∀ pre op post, ops = pre ++ op :: post → Op.closes op = true → ∃ pre' s, pre = pre' ++ [.update 1 s]) := by
  have low : ∀ c, c ≤ n → 1 ≤ n → (0 : Rat) ≤ (c : Rat) / n * (1 / 10) ∧ (c : Rat) / n * (1 / 10) ≤ 1 := by
    intro c hc hn
    obtain ⟨h1, h2⟩ := part_bounds hn hc
    constructor <;> linarith
  have high : ∀ c, c ≤ n → 1 ≤ n → (0 : Rat) ≤ (c : Rat) / n * (9 / 10) + 1 / 10 ∧ (c : Rat) / n * (9 / 10) + 1 / 10 ≤ 1 := by
    intro c hc hn
    obtain ⟨h1, h2⟩ := part_bounds hn hc
    constructor <;> linarith
  -- a list of updates, one with 1, and the end
  have ends : ∀ (l : List Op) (s : Option Str) (t : Str), (∀ op ∈ l, Op.closes op = false) → ∀ pre op post, l ++ [.update 1 s, .finish t] = pre ++ op :: post →
      Op.closes op = true → ∃ pre' s, pre = pre' ++ [.update 1 s] := by
    intro l s t hl pre op post e hc
    have e' : (l ++ [.update 1 s]) ++ [.finish t] = pre ++ op :: post := by rw [← e]; simp
    rcases post.eq_nil_or_concat with rfl | ⟨post', x, rfl⟩
    · obtain ⟨rfl, -⟩ := List.append_inj' e' rfl
      exact ⟨l, s, rfl⟩
    · exfalso
      have e2 : (l ++ [.update 1 s]) ++ [.finish t] = (pre ++ op :: post') ++ [x] := by rw [e']; simp
      obtain ⟨e3, -⟩ := List.append_inj' e2 rfl
      have : op ∈ l ++ [.update 1 s] := by rw [e3]; simp
      rcases List.mem_append.1 this with h | h
      · rw [hl op h] at hc; cases hc
      · simp only [List.mem_singleton] at h
        subst h; cases hc
  have up : ∀ (k : Nat) (f : Nat → Rat) (g : Nat → Str) (op : Op), op ∈ every k n (fun c => .update (f c) (some (g c))) → Op.closes op = false := by
    intro k f g op h
    obtain ⟨c, -, rfl⟩ := every_mem h
    rfl
  have none' : ∀ l : List Op, (∀ op ∈ l, Op.closes op = false) → ∀ pre op post, l = pre ++ op :: post → Op.closes op = true → ∃ pre' s, pre = pre' ++ [Op.update 1 s] := by
    rintro l hl pre op post rfl hc
    rw [hl op (by simp)] at hc; cases hc
  rcases h with rfl | rfl
  · unfold edgeListOps
    by_cases hn : n < 1
    · rw [if_pos hn]
      exact ⟨fun p s h => by simp only [List.mem_singleton, Op.update.injEq] at h; rw [h.1]; norm_num, none' _ (by simp [Op.closes])⟩
    · rw [if_neg hn]
      have hn' : 1 ≤ n := by omega
      cases extraInfo with
      | false =>
        exact ⟨fun p s h => by simp only [if_pos, List.mem_singleton, Op.update.injEq] at h; rw [h.1]; norm_num, none' _ (by simp [Op.closes])⟩
      | true =>
        cases allSame with
        | true => exact ⟨by simp, by simp⟩
        | false =>
          simp only [Bool.true_eq_false, Bool.false_eq_true, if_false]
          refine ⟨?_, ends _ _ _ ?_⟩
          · intro p s h
            rcases List.mem_append.1 h with h | h
            · rcases List.mem_append.1 h with h | h
              · rcases List.mem_append.1 h with h | h
                · obtain ⟨c, hc, e⟩ := every_mem h
                  cases e; exact low c hc hn'
                · simp only [List.mem_singleton, Op.update.injEq] at h; rw [h.1]; norm_num
              · obtain ⟨c, hc, e⟩ := every_mem h
                cases e; exact high c hc hn'
            · simp only [List.mem_cons, Op.update.injEq, reduceCtorEq, List.not_mem_nil, or_false] at h; rw [h.1]; norm_num
          · intro op h
            rcases List.mem_append.1 h with h | h
            · rcases List.mem_append.1 h with h | h
              · exact up _ _ _ op h
              · simp only [List.mem_singleton] at h; subst h; rfl
            · exact up _ _ _ op h
  · unfold nodeListOps
    by_cases hn : n < 1
    · rw [if_pos hn]
      exact ⟨fun p s h => by simp only [List.mem_singleton, Op.update.injEq] at h; rw [h.1]; norm_num, none' _ (by simp [Op.closes])⟩
    · rw [if_neg hn]
      have hn' : 1 ≤ n := by omega
      cases allSame with
      | true => exact ⟨by simp, by simp⟩
      | false =>
        simp only [Bool.false_eq_true, if_false]
        refine ⟨?_, ends _ _ _ ?_⟩
        · intro p s h
          rcases List.mem_append.1 h with h | h
          · rcases List.mem_append.1 h with h | h
            · rcases List.mem_append.1 h with h | h
              · obtain ⟨c, hc, e⟩ := every_mem h
                cases e; exact low c hc hn'
              · simp only [List.mem_singleton, Op.update.injEq] at h; rw [h.1]; norm_num
            · obtain ⟨c, hc, e⟩ := every_mem h
              cases e; exact high c hc hn'
          · simp only [List.mem_cons, Op.update.injEq, reduceCtorEq, List.not_mem_nil, or_false] at h; rw [h.1]; norm_num
        · intro op h
          rcases List.mem_append.1 h with h | h
          · rcases List.mem_append.1 h with h | h
            · exact up _ _ _ op h
            · simp only [List.mem_singleton] at h; subst h; rfl
          · exact up _ _ _ op h

/-! ## A case -/

/-- Running the two programs in a given order: `true` is a step of the thread. -/
def exec (dummy : Bool) : List Bool → State → Option State
  | [], s => some s
  | true :: sch, s =>
    if s.thread ≠ .ended then
      exec dummy sch { s with sh := (threadStep large 40 0 s.sh s.thread).1, thread := (threadStep large 40 0 s.sh s.thread).2 }
    else none
  | false :: sch, s =>
    match mainStep large dummy 40 0 s with
    | some s' => exec dummy sch s'
    | none => none

theorem exec_reach (dummy : Bool) (sch : List Bool) (s s' : State) (h : exec large dummy sch s = some s') : Reach large dummy s s' := by
  induction sch generalizing s with
  | nil => simp only [exec, Option.some.injEq] at h; subst h; exact .refl
  | cons b sch ih =>
    cases b with
    | true =>
      simp only [exec] at h
      by_cases he : s.thread ≠ .ended
      · rw [if_pos he] at h
        exact .head (.thread 40 0 s he) (ih _ h)
      · rw [if_neg he] at h; cases h
    | false =>
      simp only [exec] at h
      cases hm : mainStep large dummy 40 0 s with
      | none => rw [hm] at h; cases h
      | some s1 => rw [hm] at h; exact .head (.main 40 0 s s1 hm) (ih _ h)

/-- A program, and an order in which the thread draws the bar once, is drawing it again when `finish` is called, and sees the new text and the old part done. -/
def exOps : List Op := [.update (1 / 2) (some "half".toList), .finish "done".toList, .leave]
def exSched : List Bool :=
  List.replicate 9 true ++ [false, false] ++ List.replicate 6 true ++ [false, false, false] ++ [true, true, true, true] ++ List.replicate 7 false

example : ∃ s, Reach (fun _ _ => false) false (start false 0 "start".toList exOps) s ∧ s.cur = [] ∧ s.rest = [] ∧ s.sh.out.length = 7 := by
  have he : (exec (fun _ _ => false) false exSched (start false 0 "start".toList exOps)).map (fun s => (s.cur, s.rest, s.sh.out.length)) = some ([], [], 7) := by
    decide +kernel
  obtain ⟨s, h1, h2⟩ := Option.map_eq_some_iff.1 he
  simp only [Prod.mk.injEq] at h2
  exact ⟨s, exec_reach _ false _ _ _ h1, h2.1, h2.2.1, h2.2.2⟩

example : ∃ op ∈ exOps, Op.closes op = true := ⟨.leave, by simp [exOps], rfl⟩
example : ((0 : Rat) :: opPers exOps).Pairwise (· ≤ ·) := by simp [exOps, opPers]

end Verif.Props.ProgressThread
