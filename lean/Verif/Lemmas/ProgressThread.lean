import Verif.Spec.ProgressThread
import Mathlib.Tactic.Common
import Mathlib.Data.Rat.Floor

/-! # Invariants of the progress bar and its thread -/
set_option autoImplicit false
set_option linter.unusedSimpArgs false
namespace Verif.Lemmas.ProgressThread
open Verif.Py Verif.Model.ProgressBar Verif.Model.ProgressThread Verif.Spec.ProgressThread

variable (large : Rat → Int → Bool)

/-- What is still to be written by the main program. -/
def Rem : List Instr → Bool → Str → List Op → List Str → Prop
  | [], f, _, rest, w => Ending large f rest w
  | .setPer _ :: c, f, t, rest, w => Rem c f t rest w
  | .setText t :: c, f, _, rest, w => Rem c f t rest w
  | .setFinished :: c, _, t, rest, w => Rem c true t rest w
  | .join :: c, f, t, rest, w => Rem c f t rest w
  | .write s :: c, f, t, rest, w => ∃ w', w = s :: w' ∧ Rem c f t rest w'
  | .writeLast :: c, f, t, rest, w => ∃ col k w', w = finishLine large col t k :: w' ∧ Rem c f t rest w'
  | .leave :: c, f, t, rest, w => if f then Rem c f t rest w else ∃ w', w = ['\n'] :: w' ∧ Rem c true t rest w'

/-- The main program writes only when the thread has ended, and waits for it only when it has been told to end. -/
def Safe : List Instr → Bool → Bool → Prop
  | [], f, e => f = true → e = true
  | .setPer _ :: c, f, e => Safe c f e
  | .setText _ :: c, f, e => Safe c f e
  | .setFinished :: c, _, e => Safe c true e
  | .join :: c, f, _ => f = true ∧ Safe c f true
  | .write _ :: c, f, e => e = true ∧ Safe c f e
  | .writeLast :: c, f, e => e = true ∧ Safe c f e
  | .leave :: c, f, e => (f = true → e = true) ∧ Safe c true true

theorem Safe.mono {c : List Instr} {f : Bool} : ∀ {e : Bool}, Safe c f e → Safe c f true := by
  induction c generalizing f with
  | nil => intro e _ _; rfl
  | cons i c ih =>
    cases i <;> intro e h
    · exact ih (f := f) (e := e) h
    · exact ih (f := f) (e := e) h
    · exact ih (f := true) (e := e) h
    · exact h
    · exact ⟨rfl, ih h.2⟩
    · exact ⟨rfl, ih h.2⟩
    · exact ⟨fun _ => rfl, h.2⟩

theorem Safe.compile (op : Op) (f e : Bool) (h : f = true → e = true) : Safe (compile false op) f e := by
  cases op with
  | update p t => cases t <;> exact h
  | finish t => exact ⟨rfl, rfl, rfl, rfl, fun _ => rfl⟩
  | leave => exact ⟨h, fun _ => rfl⟩

theorem Rem.compile (op : Op) (f : Bool) (t : Str) (rest : List Op) (w : List Str) (h : Rem large (compile false op) f t rest w) : Ending large f (op :: rest) w := by
  cases op with
  | update p t' => cases t' <;> exact .update _ _ _ _ _ h
  | finish t' =>
    obtain ⟨w1, rfl, col, k, w2, rfl, w3, rfl, h⟩ := h
    exact .finish _ _ _ _ _ _ h
  | leave =>
    cases f with
    | true => exact .leaveClosed _ _ h
    | false =>
      obtain ⟨w', rfl, h⟩ := h
      exact .leave _ _ h

/-- The parts done still to be set. -/
def curPers : List Instr → List Rat
  | [] => []
  | .setPer p :: c => p :: curPers c
  | _ :: c => curPers c

/-- The texts still to be set. -/
def curTexts : List Instr → List Str
  | [] => []
  | .setText t :: c => t :: curTexts c
  | _ :: c => curTexts c

/-- What the thread has at hand: the part done it has read for the percentage, and what it has written of a picture. -/
def PcOk (P : Rat → Prop) (Q : Str → Prop) : Pc → List Rat → List Str → Prop
  | .length _ p, mid, part => mid = [p] ∧ part = [['\r']] ∧ P p
  | .choose _ p q, mid, part => mid = [p] ∧ part = [['\r']] ∧ P p ∧ P q
  | .layout _ p, mid, part => mid = [p] ∧ part = [['\r']] ∧ P p
  | .emit l, mid, part => part = [['\r']] ∧ ∃ pic : Picture, l = pic.line large ∧ mid = [pic.per] ∧ (∀ p ∈ pic.pers, P p) ∧ (∀ t ∈ pic.texts, Q t)
  | .percent _, mid, part => mid = [] ∧ part = [['\r']]
  | _, mid, part => mid = [] ∧ part = []

/-- The invariant. -/
structure Inv (p0 : Rat) (t0 : Str) (ops : List Op) (s : State) (ps : List Picture) (mid : List Rat) (part tail : List Str) : Prop where
  safe : Safe s.cur s.sh.finished (decide (s.thread = .ended))
  told : s.thread = .ended → s.sh.finished = true
  out : s.sh.out = pictures large ps ++ part ++ tail
  pc : PcOk large (· ∈ p0 :: opPers ops) (· ∈ t0 :: opTexts ops) s.thread mid part
  noTail : s.thread ≠ .ended → tail = []
  rem : ∀ w, Rem large s.cur s.sh.finished s.sh.text s.rest w → Ending large false ops (tail ++ w)
  pers : ∀ pic ∈ ps, (∀ p ∈ pic.pers, p ∈ p0 :: opPers ops) ∧ (∀ t ∈ pic.texts, t ∈ t0 :: opTexts ops)
  per : s.sh.per ∈ p0 :: opPers ops
  text : s.sh.text ∈ t0 :: opTexts ops
  remPers : ∀ p ∈ curPers s.cur ++ opPers s.rest, p ∈ p0 :: opPers ops
  remTexts : ∀ t ∈ curTexts s.cur ++ opTexts s.rest, t ∈ t0 :: opTexts ops
  order : (p0 :: opPers ops).Pairwise (· ≤ ·) → (ps.map Picture.per ++ mid ++ s.sh.per :: (curPers s.cur ++ opPers s.rest)).Pairwise (· ≤ ·)

theorem inv_start (p0 : Rat) (t0 : Str) (ops : List Op) : Inv large p0 t0 ops (start false p0 t0 ops) [] [] [] [] where
  safe := fun h => by cases h
  told := fun h => by cases h
  out := rfl
  pc := ⟨rfl, rfl⟩
  noTail := fun _ => rfl
  rem := fun w h => h
  pers := fun _ h => by cases h
  per := List.mem_cons_self
  text := List.mem_cons_self
  remPers := fun p h => List.mem_cons_of_mem _ h
  remTexts := fun p h => List.mem_cons_of_mem _ h
  order := fun h => h

theorem pictures_append (ps : List Picture) (pic : Picture) : pictures large (ps ++ [pic]) = pictures large ps ++ [['\r'], pic.line large] := by
  simp [pictures, Picture.writes]

theorem dup_le {A B : List Rat} {x : Rat} (h : (A ++ x :: B).Pairwise (· ≤ ·)) : (A ++ [x] ++ x :: B).Pairwise (· ≤ ·) := by
  rw [List.pairwise_append] at h ⊢
  obtain ⟨h1, h2, h3⟩ := h
  refine ⟨?_, h2, ?_⟩
  · rw [List.pairwise_append]
    refine ⟨h1, by simp, fun a ha b hb => ?_⟩
    have : b = x := by simpa using hb
    exact this ▸ h3 a ha x List.mem_cons_self
  · intro a ha b hb
    rcases List.mem_append.1 ha with ha | ha
    · exact h3 a ha b hb
    · have : a = x := by simpa using ha
      subst this
      rcases List.mem_cons.1 hb with rfl | hb
      · exact le_refl _
      · exact (List.pairwise_cons.1 h2).1 b hb

theorem drop_le {A B : List Rat} {x y : Rat} (h : (A ++ x :: y :: B).Pairwise (· ≤ ·)) : (A ++ y :: B).Pairwise (· ≤ ·) :=
  h.sublist (List.Sublist.append (List.Sublist.refl _) (List.sublist_cons_self _ _))

theorem inv_thread (columns : Int) (clock : Rat) (p0 : Rat) (t0 : Str) (ops : List Op) (s : State) (ps : List Picture) (mid : List Rat) (part tail : List Str)
    (h : Inv large p0 t0 ops s ps mid part tail) (hne : s.thread ≠ .ended) :
    ∃ ps' mid' part' tail', Inv large p0 t0 ops
      { s with sh := (threadStep large columns clock s.sh s.thread).1, thread := (threadStep large columns clock s.sh s.thread).2 } ps' mid' part' tail' := by
  have ht := h.noTail hne
  subst ht
  have hsafe : ∀ pc', pc' ≠ Pc.ended → Safe s.cur s.sh.finished (decide (pc' = .ended)) := by
    intro pc' h'
    have := h.safe
    rw [decide_eq_false hne] at this
    rw [decide_eq_false h']; exact this
  obtain ⟨sh, th, cur, rest⟩ := s
  have hpc := h.pc
  cases th with
  | check =>
    obtain ⟨rfl, rfl⟩ := hpc
    simp only [threadStep]
    cases hf : sh.finished with
    | false =>
      simp only [Bool.false_eq_true, if_false]
      exact ⟨ps, [], [], [], { h with safe := hsafe _ (by simp), told := (fun h => by cases h), pc := ⟨rfl, rfl⟩, noTail := fun _ => rfl }⟩
    | true =>
      simp only [if_true]
      exact ⟨ps, [], [], [], { h with safe := h.safe.mono, told := fun _ => hf, pc := ⟨rfl, rfl⟩, noTail := fun _ => rfl }⟩
  | size =>
    obtain ⟨rfl, rfl⟩ := hpc
    exact ⟨ps, [], [], [], { h with safe := hsafe _ (by simp [threadStep]), told := (fun h => by cases h), pc := ⟨rfl, rfl⟩, noTail := fun _ => rfl }⟩
  | cr c =>
    obtain ⟨rfl, rfl⟩ := hpc
    refine ⟨ps, [], [['\r']], [], { h with safe := hsafe _ (by simp [threadStep]), told := (fun h => by cases h), out := ?_, pc := ⟨rfl, rfl⟩, noTail := fun _ => rfl }⟩
    have := h.out
    simp only [List.append_nil] at this
    simp [threadStep, Shared.write, this]
  | percent c =>
    obtain ⟨rfl, rfl⟩ := hpc
    refine ⟨ps, [sh.per], [['\r']], [], { h with safe := hsafe _ (by simp [threadStep]), told := (fun h => by cases h), pc := ⟨rfl, rfl, h.per⟩, noTail := fun _ => rfl, order := fun ho => ?_ }⟩
    have := h.order ho
    rw [List.append_nil] at this
    exact dup_le this
  | length c p =>
    obtain ⟨rfl, rfl, hp⟩ := hpc
    exact ⟨ps, [p], [['\r']], [], { h with safe := hsafe _ (by simp [threadStep]), told := (fun h => by cases h), pc := ⟨rfl, rfl, hp, h.per⟩, noTail := fun _ => rfl }⟩
  | choose c p q =>
    obtain ⟨rfl, rfl, hp, hq⟩ := hpc
    by_cases htx : sh.text ≠ []
    · simp only [threadStep, if_pos htx]
      exact ⟨ps, [p], [['\r']], [], { h with safe := hsafe _ (by simp), told := (fun h => by cases h), pc := ⟨rfl, rfl, hp⟩, noTail := fun _ => rfl }⟩
    · simp only [threadStep, if_neg htx]
      refine ⟨ps, [p], [['\r']], [], { h with safe := hsafe _ (by simp), told := (fun h => by cases h), pc := ⟨rfl, .withBar c p q, rfl, rfl, ?_, ?_⟩, noTail := fun _ => rfl }⟩
      · intro x hx
        simp only [Picture.pers, List.mem_cons, List.not_mem_nil, or_false] at hx
        rcases hx with rfl | rfl
        · exact hp
        · exact hq
      · intro x hx; cases hx
  | layout c p =>
    obtain ⟨rfl, rfl, hp⟩ := hpc
    refine ⟨ps, [p], [['\r']], [], { h with safe := hsafe _ (by simp [threadStep]), told := (fun h => by cases h), pc := ⟨rfl, .withText c p sh.text clock, rfl, rfl, ?_, ?_⟩, noTail := fun _ => rfl }⟩
    · intro x hx
      have : x = p := by simpa [Picture.pers] using hx
      exact this ▸ hp
    · intro x hx
      have : x = sh.text := by simpa [Picture.texts] using hx
      exact this ▸ h.text
  | emit l =>
    obtain ⟨rfl, pic, rfl, rfl, hpp, hpt⟩ := hpc
    refine ⟨ps ++ [pic], [], [], [], { h with safe := hsafe _ (by simp [threadStep]), told := (fun h => by cases h), out := ?_, pc := ⟨rfl, rfl⟩, noTail := fun _ => rfl, pers := ?_, order := fun ho => ?_ }⟩
    · have := h.out
      simp only [List.append_nil] at this
      simp only [threadStep, Shared.write, this, pictures_append, List.append_nil, List.append_assoc]
      rfl
    · intro x hx
      rcases List.mem_append.1 hx with hx | hx
      · exact h.pers x hx
      · have : x = pic := by simpa using hx
        subst this; exact ⟨hpp, hpt⟩
    · have := h.order ho
      simpa [threadStep, Shared.write] using this
  | pause =>
    obtain ⟨rfl, rfl⟩ := hpc
    exact ⟨ps, [], [], [], { h with safe := hsafe _ (by simp [threadStep]), told := (fun h => by cases h), pc := ⟨rfl, rfl⟩, noTail := fun _ => rfl }⟩
  | ended => exact absurd rfl hne

theorem curPers_compile (op : Op) (rest : List Op) : curPers (compile false op) ++ opPers rest = opPers (op :: rest) := by
  cases op with
  | update p t => cases t <;> rfl
  | finish t => rfl
  | leave => rfl

theorem curTexts_compile (op : Op) (rest : List Op) : curTexts (compile false op) ++ opTexts rest = opTexts (op :: rest) := by
  cases op with
  | update p t => cases t <;> rfl
  | finish t => rfl
  | leave => rfl

theorem inv_main (columns : Int) (clock : Rat) (p0 : Rat) (t0 : Str) (ops : List Op) (s s' : State) (ps : List Picture) (mid : List Rat) (part tail : List Str)
    (h : Inv large p0 t0 ops s ps mid part tail) (hs : mainStep large false columns clock s = some s') :
    ∃ tail', Inv large p0 t0 ops s' ps mid part tail' := by
  obtain ⟨sh, th, cur, rest⟩ := s
  have hwrite : ∀ x : Str, Safe cur sh.finished (decide (th = .ended)) → (∃ i c, cur = i :: c ∧ (i = .writeLast ∨ ∃ y, i = .write y)) →
      th = .ended ∧ mid = [] ∧ part = [] := by
    rintro x hsf ⟨i, c, rfl, hi⟩
    have he : th = .ended := by
      rcases hi with rfl | ⟨y, rfl⟩
      · simpa using hsf.1
      · simpa using hsf.1
    subst he
    exact ⟨rfl, h.pc.1, h.pc.2⟩
  cases cur with
  | nil =>
    cases rest with
    | nil => simp [mainStep] at hs
    | cons op ops' =>
      simp only [mainStep, Option.some.injEq] at hs
      subst hs
      refine ⟨tail, { h with safe := Safe.compile op _ _ h.safe, rem := fun w hw => h.rem w (Rem.compile large op _ _ _ w hw), remPers := ?_, remTexts := ?_, order := ?_ }⟩
      · show ∀ p ∈ curPers (compile false op) ++ opPers ops', _
        rw [curPers_compile]; exact h.remPers
      · show ∀ p ∈ curTexts (compile false op) ++ opTexts ops', _
        rw [curTexts_compile]; exact h.remTexts
      · intro ho
        show (_ ++ _ ++ sh.per :: (curPers (compile false op) ++ opPers ops')).Pairwise (· ≤ ·)
        rw [curPers_compile]; exact h.order ho
  | cons i c =>
    cases i with
    | setPer p =>
      simp only [mainStep, Option.some.injEq] at hs
      subst hs
      refine ⟨tail, { h with per := h.remPers p List.mem_cons_self, remPers := fun q hq => h.remPers q (List.mem_cons_of_mem _ hq), order := fun ho => drop_le (h.order ho) }⟩
    | setText t =>
      simp only [mainStep, Option.some.injEq] at hs
      subst hs
      exact ⟨tail, { h with text := h.remTexts t List.mem_cons_self, remTexts := fun q hq => h.remTexts q (List.mem_cons_of_mem _ hq) }⟩
    | setFinished =>
      simp only [mainStep, Option.some.injEq] at hs
      subst hs
      exact ⟨tail, { h with told := fun _ => rfl }⟩
    | join =>
      simp only [mainStep] at hs
      by_cases he : th = .ended
      · rw [if_pos he, Option.some.injEq] at hs
        subst hs
        refine ⟨tail, { h with safe := ?_ }⟩
        have := h.safe.2
        show Safe c sh.finished (decide (th = .ended))
        rw [decide_eq_true he]; exact this
      · rw [if_neg he] at hs; cases hs
    | write x =>
      simp only [mainStep, Option.some.injEq] at hs
      subst hs
      obtain ⟨he, hm, hp⟩ := hwrite x h.safe ⟨_, c, rfl, Or.inr ⟨x, rfl⟩⟩
      subst hm hp
      refine ⟨tail ++ [x], { h with safe := h.safe.2, out := ?_, noTail := fun hne => absurd he hne, rem := fun w hw => ?_ }⟩
      · have := h.out
        simp only at this
        simp [Shared.write, this]
      · have := h.rem (x :: w) ⟨w, rfl, hw⟩
        simpa using this
    | writeLast =>
      simp only [mainStep, Option.some.injEq] at hs
      subst hs
      obtain ⟨he, hm, hp⟩ := hwrite [] h.safe ⟨_, c, rfl, Or.inl rfl⟩
      subst hm hp
      refine ⟨tail ++ [finishLine large columns sh.text clock], { h with safe := h.safe.2, out := ?_, noTail := fun hne => absurd he hne, rem := fun w hw => ?_ }⟩
      · have := h.out
        simp only at this
        simp [Shared.write, this]
      · have := h.rem (finishLine large columns sh.text clock :: w) ⟨columns, clock, w, rfl, hw⟩
        simpa using this
    | leave =>
      simp only [mainStep] at hs
      cases hf : sh.finished with
      | true =>
        rw [if_pos hf, Option.some.injEq] at hs
        subst hs
        refine ⟨tail, { h with safe := ?_, rem := fun w hw => h.rem w ?_ }⟩
        · have h1 := h.safe.1 hf
          have h2 := h.safe.2
          show Safe c sh.finished (decide (th = .ended))
          rw [hf, h1]; exact h2
        · show Rem large (.leave :: c) sh.finished _ _ w
          unfold Rem
          rw [if_pos hf]; exact hw
      | false =>
        rw [if_neg (by rw [hf]; simp), Option.some.injEq] at hs
        subst hs
        refine ⟨tail, { h with safe := ?_, rem := fun w hw => h.rem w ?_ }⟩
        · exact ⟨rfl, rfl, h.safe.2⟩
        · show Rem large (.leave :: c) sh.finished _ _ w
          unfold Rem
          rw [if_neg (by rw [hf]; simp)]; exact hw

theorem inv_reach (p0 : Rat) (t0 : Str) (ops : List Op) (s : State) (h : Reach large false (start false p0 t0 ops) s) :
    ∃ ps mid part tail, Inv large p0 t0 ops s ps mid part tail := by
  induction h with
  | refl => exact ⟨_, _, _, _, inv_start large p0 t0 ops⟩
  | tail _ hstep ih =>
    obtain ⟨ps, mid, part, tail, hi⟩ := ih
    cases hstep with
    | thread columns clock _ hne => exact inv_thread large columns clock p0 t0 ops _ ps mid part tail hi hne
    | main columns clock _ _ hs =>
      obtain ⟨t', h'⟩ := inv_main large columns clock p0 t0 ops _ _ ps mid part tail hi hs
      exact ⟨_, _, _, _, h'⟩

end Verif.Lemmas.ProgressThread
