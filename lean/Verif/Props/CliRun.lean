import Verif.Spec.CliRun
import Mathlib.Tactic.Tauto
import Mathlib.Data.List.Dedup

/-!
# C87: the command line tool makes what is chosen in its menus
-/
set_option autoImplicit false
set_option linter.unusedSimpArgs false
namespace Verif.Props.CliRun
open Verif.Py Verif.Model.Cli Verif.Model.CliRun Verif.Spec.CliRun

/-- The dialogue gives exactly the answers, and leaves exactly the lines, that the relation says. -/
def Exact {α : Type} (f : List Str → Except Stop (α × List Str)) (R : α → List Str → Prop) : Prop :=
  ∀ lines x rest, f lines = .ok (x, rest) ↔ ∃ typed, lines = typed ++ rest ∧ R x typed

theorem exact_menu (keys : List Str) : Exact (menu keys) (Picked keys) := by
  intro lines x rest
  induction lines with
  | nil =>
    simp only [menu, reduceCtorEq, false_iff]
    rintro ⟨t, h, j, rfl, -⟩
    simp at h
  | cons l ls ih =>
    unfold menu
    by_cases h1 : l ∈ keys
    · rw [if_pos h1]
      constructor
      · intro h
        cases h
        exact ⟨[x], rfl, [], rfl, h1, by simp⟩
      · rintro ⟨t, h, j, rfl, hk, hj⟩
        cases j with
        | nil => cases h; rfl
        | cons a j => obtain ⟨rfl, -⟩ := List.cons.inj h; exact absurd h1 (hj _ (by simp)).1
    · rw [if_neg h1]
      have hno : ∀ t, l :: ls = t ++ rest → Picked keys x t → l ≠ ['q'] ∧ l ≠ ['i'] ∧ ∃ t', ls = t' ++ rest ∧ Picked keys x t' := by
        rintro t h ⟨j, rfl, hk, hj⟩
        cases j with
        | nil => cases h; exact absurd hk h1
        | cons a j =>
          obtain ⟨rfl, rfl⟩ := List.cons.inj h
          have := hj _ (List.mem_cons_self)
          exact ⟨this.2.1, this.2.2, j ++ [x], rfl, j, rfl, hk, fun y hy => hj y (by simp [hy])⟩
      by_cases h2 : l = ['q']
      · rw [if_pos h2]
        simp only [reduceCtorEq, false_iff]
        rintro ⟨t, h, hp⟩
        exact (hno t h hp).1 h2
      · rw [if_neg h2]
        by_cases h3 : l = ['i']
        · rw [if_pos h3]
          simp only [reduceCtorEq, false_iff]
          rintro ⟨t, h, hp⟩
          exact (hno t h hp).2.1 h3
        · rw [if_neg h3, ih]
          constructor
          · rintro ⟨t, rfl, j, rfl, hk, hj⟩
            refine ⟨l :: (j ++ [x]), rfl, l :: j, rfl, hk, ?_⟩
            intro y hy
            rcases List.mem_cons.1 hy with rfl | hy
            · exact ⟨h1, h2, h3⟩
            · exact hj y hy
          · rintro ⟨t, h, hp⟩
            exact (hno t h hp).2.2

theorem exact_tag (upper : Str → Str) (tags : List Str) : Exact (readTag upper tags) (Tagged upper tags) := by
  intro lines x rest
  induction lines with
  | nil =>
    simp only [readTag, reduceCtorEq, false_iff]
    rintro ⟨t, h, j, l, rfl, -⟩
    simp at h
  | cons l ls ih =>
    unfold readTag
    by_cases h1 : upper l ∈ tags
    · rw [if_pos h1]
      constructor
      · intro h
        cases h
        exact ⟨[l], rfl, [], l, rfl, rfl, h1, by simp⟩
      · rintro ⟨t, h, j, l', rfl, hu, hk, hj⟩
        cases j with
        | nil => cases h; rw [hu]; rfl
        | cons a j => cases h; exact absurd h1 (hj l (by simp))
    · rw [if_neg h1, ih]
      constructor
      · rintro ⟨t, rfl, j, l', rfl, hu, hk, hj⟩
        refine ⟨l :: (j ++ [l']), rfl, l :: j, l', rfl, hu, hk, ?_⟩
        intro y hy
        rcases List.mem_cons.1 hy with rfl | hy
        · exact h1
        · exact hj y hy
      · rintro ⟨t, h, j, l', rfl, hu, hk, hj⟩
        cases j with
        | nil => cases h; rw [hu] at h1; exact absurd hk h1
        | cons a j => cases h; exact ⟨j ++ [l'], rfl, j, l', rfl, hu, hk, fun y hy => hj y (by simp [hy])⟩

theorem exact_more (upper : Str → Str) (tags : List Str) : Exact (moreTags upper tags) (MoreTagged upper tags) := by
  intro lines
  induction lines with
  | nil =>
    intro x rest
    simp only [moreTags, reduceCtorEq, false_iff]
    rintro ⟨t, h, hm⟩
    cases hm <;> simp at h
  | cons l ls ih =>
    intro x rest
    unfold moreTags
    by_cases h0 : upper l = []
    · rw [if_pos h0]
      constructor
      · intro h; cases h; exact ⟨[l], rfl, .stop l h0⟩
      · rintro ⟨t, h, hm⟩
        cases hm with
        | stop l' h' => cases h; rfl
        | skip ts typed l' h' => cases h; exact absurd h0 h'
        | tag t ts typed l' h' h'' => cases h; rw [h'] at h0; exact absurd h0 h''
    · rw [if_neg h0]
      by_cases h1 : upper l ∈ tags
      · rw [if_pos h1]
        constructor
        · intro h
          cases hm : moreTags upper tags ls with
          | error e => rw [hm] at h; cases h
          | ok p =>
            obtain ⟨ts, r⟩ := p
            rw [hm] at h
            cases h
            obtain ⟨t, rfl, ht⟩ := (ih ts rest).1 hm
            exact ⟨l :: t, rfl, .tag _ _ _ _ rfl h0 h1 ht⟩
        · rintro ⟨t, h, hm⟩
          cases hm with
          | stop l' h' => cases h; exact absurd h' h0
          | skip ts typed l' h' h'' => cases h; exact absurd h1 h''
          | tag t ts typed l' h' h'' h3 h4 =>
            cases h
            rw [(ih ts rest).2 ⟨typed, rfl, h4⟩, h']
      · rw [if_neg h1, ih]
        constructor
        · rintro ⟨t, rfl, ht⟩
          exact ⟨l :: t, rfl, .skip _ _ _ h0 h1 ht⟩
        · rintro ⟨t, h, hm⟩
          cases hm with
          | stop l' h' => cases h; exact absurd h' h0
          | skip ts typed l' h' h'' h3 => cases h; exact ⟨typed, rfl, h3⟩
          | tag t ts typed l' h' h'' h3 h4 => cases h; rw [h'] at h1; exact absurd h3 h1

theorem exact_pure {α : Type} (x : α) : Exact (fun lines => .ok (x, lines)) (fun y typed => y = x ∧ typed = []) := by
  intro lines y rest
  constructor
  · intro h; cases h; exact ⟨[], rfl, rfl, rfl⟩
  · rintro ⟨t, rfl, rfl, rfl⟩; rfl

theorem exact_bind {α β : Type} {f : List Str → Except Stop (α × List Str)} {R : α → List Str → Prop} (hf : Exact f R)
    {g : α → List Str → Except Stop (β × List Str)} {S : α → β → List Str → Prop} (hg : ∀ x typed, R x typed → Exact (g x) (S x)) :
    Exact (fun lines => f lines >>= fun p => g p.1 p.2) (fun y typed => ∃ x a b, typed = a ++ b ∧ R x a ∧ S x y b) := by
  intro lines y rest
  constructor
  · intro h
    dsimp only at h
    cases hl : f lines with
    | error e => rw [hl] at h; cases h
    | ok p =>
      obtain ⟨x, ls⟩ := p
      rw [hl] at h
      obtain ⟨a, rfl, ha⟩ := (hf lines x ls).1 hl
      obtain ⟨b, rfl, hb⟩ := (hg x a ha ls y rest).1 h
      exact ⟨a ++ b, by simp, x, a, b, rfl, ha, hb⟩
  · rintro ⟨t, rfl, x, a, b, rfl, ha, hb⟩
    dsimp only
    rw [(hf (a ++ b ++ rest) x (b ++ rest)).2 ⟨a, by simp, ha⟩]
    exact (hg x a ha (b ++ rest) y rest).2 ⟨b, rfl, hb⟩

theorem exact_congr {α : Type} {f g : List Str → Except Stop (α × List Str)} {R S : α → List Str → Prop} (hf : Exact f R) (e : ∀ l, g l = f l)
    (h : ∀ x t, S x t ↔ R x t) : Exact g S := by
  intro lines x rest
  rw [e, hf]
  simp only [h]

/-- **C87**, networks. The network made is the one chosen in the menu, with the tags typed for it in the order they were typed; lines that are no answer are skipped. -/
theorem C87_network (upper : Str → Str) (tags lines rest : List Str) (net : Net) :
    getNetwork upper tags lines = .ok (net, rest) ↔ ∃ typed, lines = typed ++ rest ∧ NetTyped upper tags net typed := by
  have hb := exact_bind (exact_menu [['1'], ['2'], ['3'], ['4'], ['5'], ['6']])
    (g := fun n lines =>
      if n = ['1'] then readTag upper tags lines >>= fun p => .ok (Net.oneMode p.1, p.2)
      else if n = ['2'] then readTag upper tags lines >>= fun p => readTag upper tags p.2 >>= fun q => .ok (Net.twoMode p.1 q.1, q.2)
      else if n = ['3'] then readTag upper tags lines >>= fun p => moreTags upper tags p.2 >>= fun q => .ok (Net.multiMode (p.1 :: q.1), q.2)
      else if n = ['4'] then .ok (Net.citation, lines)
      else if n = ['5'] then .ok (Net.coCitation, lines)
      else .ok (Net.coAuthor, lines))
    (S := fun n net typed =>
      if n = ['1'] then ∃ t a b, typed = a ++ b ∧ Tagged upper tags t a ∧ net = .oneMode t ∧ b = []
      else if n = ['2'] then ∃ t a b, typed = a ++ b ∧ Tagged upper tags t a ∧ ∃ u c d, b = c ++ d ∧ Tagged upper tags u c ∧ net = .twoMode t u ∧ d = []
      else if n = ['3'] then ∃ t a b, typed = a ++ b ∧ Tagged upper tags t a ∧ ∃ us c d, b = c ++ d ∧ MoreTagged upper tags us c ∧ net = .multiMode (t :: us) ∧ d = []
      else if n = ['4'] then net = .citation ∧ typed = []
      else if n = ['5'] then net = .coCitation ∧ typed = []
      else net = .coAuthor ∧ typed = [])
    (by
      intro n _ _
      split
      · exact exact_bind (exact_tag upper tags) (fun t _ _ => exact_pure (Net.oneMode t))
      · split
        · exact exact_bind (exact_tag upper tags) (fun t _ _ => exact_bind (exact_tag upper tags) (fun u _ _ => exact_pure (Net.twoMode t u)))
        · split
          · exact exact_bind (exact_tag upper tags) (fun t _ _ => exact_bind (exact_more upper tags) (fun u _ _ => exact_pure (Net.multiMode (t :: u))))
          · split
            · exact exact_pure _
            · split
              · exact exact_pure _
              · exact exact_pure _)
  refine (exact_congr hb ?_ ?_) lines net rest
  · intro l; rfl
  · intro x t
    constructor
    · cases x with
      | oneMode t =>
        rintro ⟨a, b, rfl, hp, ht⟩
        exact ⟨['1'], a, b, rfl, hp, by rw [if_pos rfl]; exact ⟨t, b, [], by simp, ht, rfl, rfl⟩⟩
      | twoMode t u =>
        rintro ⟨a, b, c, rfl, hp, ht, hu⟩
        exact ⟨['2'], a, b ++ c, by simp, hp, by rw [if_neg (by decide), if_pos rfl]; exact ⟨t, b, c, rfl, ht, u, c, [], by simp, hu, rfl, rfl⟩⟩
      | multiMode ts =>
        rintro ⟨t, us, a, b, c, rfl, rfl, hp, ht, hu⟩
        exact ⟨['3'], a, b ++ c, by simp, hp, by
          rw [if_neg (by decide), if_neg (by decide), if_pos rfl]; exact ⟨t, b, c, rfl, ht, us, c, [], by simp, hu, rfl, rfl⟩⟩
      | citation => intro hp; exact ⟨['4'], t, [], by simp, hp, by simp⟩
      | coCitation => intro hp; exact ⟨['5'], t, [], by simp, hp, by simp⟩
      | coAuthor => intro hp; exact ⟨['6'], t, [], by simp, hp, by simp⟩
    · rintro ⟨n, a, b, rfl, hp, hs⟩
      split at hs
      · next h =>
        subst h
        obtain ⟨t, c, d, rfl, ht, rfl, rfl⟩ := hs
        exact ⟨a, c, by simp, hp, ht⟩
      · split at hs
        · next h =>
          subst h
          obtain ⟨t, c, d, rfl, ht, u, e, f, rfl, hu, rfl, rfl⟩ := hs
          exact ⟨a, c, e, by simp, hp, ht, hu⟩
        · split at hs
          · next h =>
            subst h
            obtain ⟨t, c, d, rfl, ht, u, e, f, rfl, hu, rfl, rfl⟩ := hs
            exact ⟨t, u, a, c, e, rfl, by simp, hp, ht, hu⟩
          · split at hs
            · next h =>
              subst h
              obtain ⟨rfl, rfl⟩ := hs
              rw [List.append_nil]; exact hp
            · split at hs
              · next h =>
                subst h
                obtain ⟨rfl, rfl⟩ := hs
                rw [List.append_nil]; exact hp
              · next h1 h2 h3 h4 h5 =>
                obtain ⟨rfl, rfl⟩ := hs
                have : n = ['6'] := by
                  obtain ⟨_, _, hk, _⟩ := hp
                  simp only [List.mem_cons, List.not_mem_nil, or_false] at hk
                  simpa [h1, h2, h3, h4, h5] using hk
                subst this
                rw [List.append_nil]; exact hp

/-! ## Names and answers -/

theorem means_true (upper : Str → Str) (l : Str) : yes? upper l = some true ↔ Means upper true l := by
  unfold yes? Means
  split
  · next h => simpa using h
  · next h =>
    split
    · next h' => simpa using h
    · next h' => simpa using h

theorem means_false (upper : Str → Str) (l : Str) : yes? upper l = some false ↔ Means upper false l := by
  unfold yes? Means
  split
  · next h =>
    rcases h with h | h <;> simp [h]
  · next h =>
    split
    · next h' => simpa using h'
    · next h' => simpa using h'

theorem means_none (upper : Str → Str) (l : Str) : yes? upper l = none ↔ ¬ Means upper true l ∧ ¬ Means upper false l := by
  rw [← means_true, ← means_false]
  cases yes? upper l with
  | none => simp
  | some b => cases b <;> simp

theorem means_iff (upper : Str → Str) (b : Bool) (l : Str) : yes? upper l = some b ↔ Means upper b l := by
  cases b
  · exact means_false upper l
  · exact means_true upper l

theorem answered_cons (upper : Str → Str) (b : Bool) (l : Str) (a : List Str) (h : yes? upper l = none) : Answered upper b (l :: a) ↔ Answered upper b a := by
  rw [means_none] at h
  constructor
  · rintro ⟨j, y, e, hm, hj⟩
    cases j with
    | nil => cases e; cases b <;> simp_all
    | cons c j => cases e; exact ⟨j, y, rfl, hm, fun z hz => hj z (by simp [hz])⟩
  · rintro ⟨j, y, rfl, hm, hj⟩
    refine ⟨l :: j, y, rfl, hm, ?_⟩
    intro z hz
    rcases List.mem_cons.1 hz with rfl | hz
    · exact h
    · exact hj z hz

theorem answered_one (upper : Str → Str) (b c : Bool) (l : Str) (a : List Str) (h : yes? upper l = some c) : Answered upper b (l :: a) ↔ b = c ∧ a = [] := by
  constructor
  · rintro ⟨j, y, e, hm, hj⟩
    cases j with
    | nil =>
      cases e
      rw [← means_iff, h] at hm
      cases hm
      exact ⟨rfl, rfl⟩
    | cons d j =>
      cases e
      have := (means_none upper l).2 (hj l (by simp))
      rw [h] at this; cases this
  · rintro ⟨rfl, rfl⟩
    exact ⟨[], l, rfl, (means_iff _ _ _).1 h, by simp⟩

theorem not_answered_nil (upper : Str → Str) (b : Bool) : ¬ Answered upper b [] := by
  rintro ⟨j, l, e, -⟩
  simp at e

theorem exact_yes (upper : Str → Str) : Exact (askYes upper) (Answered upper) := by
  intro lines x rest
  induction lines with
  | nil =>
    simp only [askYes, reduceCtorEq, false_iff]
    rintro ⟨t, h, ht⟩
    cases t with
    | nil => exact not_answered_nil _ _ ht
    | cons a t => cases h
  | cons l ls ih =>
    unfold askYes
    cases hy : yes? upper l with
    | some b =>
      constructor
      · intro h; cases h; exact ⟨[l], rfl, (answered_one _ _ _ _ _ hy).2 ⟨rfl, rfl⟩⟩
      · rintro ⟨t, h, ht⟩
        cases t with
        | nil => exact absurd ht (not_answered_nil _ _)
        | cons a t =>
          cases h
          obtain ⟨rfl, rfl⟩ := (answered_one _ _ _ _ _ hy).1 ht
          rfl
    | none =>
      dsimp only
      rw [ih]
      constructor
      · rintro ⟨t, rfl, ht⟩; exact ⟨l :: t, rfl, (answered_cons _ _ _ _ hy).2 ht⟩
      · rintro ⟨t, h, ht⟩
        cases t with
        | nil => exact absurd ht (not_answered_nil _ _)
        | cons a t => cases h; exact ⟨t, rfl, (answered_cons _ _ _ _ hy).1 ht⟩

/-- The question about an existing file `s`, and what comes after it. -/
def NameRest (upper : Str → Str) (there : Str → Bool) (suffix : Str) : NMode → Str → List Str → Prop
  | .name, f, typed => NameAsked upper there suffix f typed
  | .confirm s, f, typed => f = s ∧ Answered upper true typed ∨ ∃ a b, typed = a ++ b ∧ Answered upper false a ∧ NameAsked upper there suffix f b

theorem nameRest_nil (upper : Str → Str) (there : Str → Bool) (suffix : Str) (m : NMode) (f : Str) : ¬ NameRest upper there suffix m f [] := by
  cases m with
  | name => intro h; cases h
  | confirm s =>
    rintro (⟨-, h⟩ | ⟨a, b, e, h, -⟩)
    · exact not_answered_nil _ _ h
    · obtain ⟨rfl, rfl⟩ := List.append_eq_nil_iff.1 e.symm
      exact not_answered_nil _ _ h

theorem askName_exact (upper : Str → Str) (there : Str → Bool) (suffix : Str) (lines : List Str) : ∀ (m : NMode) (f : Str) (rest : List Str),
    (∀ s, m = .confirm s → s ≠ [] ∧ there s = true) →
    (askName upper there suffix m true lines = some (f, rest) ↔ ∃ typed, lines = typed ++ rest ∧ NameRest upper there suffix m f typed) := by
  induction lines with
  | nil =>
    intro m f rest _
    constructor
    · intro h; cases m <;> cases h
    · rintro ⟨t, h, ht⟩
      obtain ⟨rfl, -⟩ := List.append_eq_nil_iff.1 h.symm
      exact absurd ht (nameRest_nil _ _ _ _ _)
  | cons l ls ih =>
    intro m f rest hm
    have ihn := ih .name f rest (by simp)
    have hdrop : ∀ (P : List Str → Prop), (¬ P []) → ((∃ typed, l :: ls = typed ++ rest ∧ P typed) ↔ ∃ t, ls = t ++ rest ∧ P (l :: t)) := by
      intro P hP
      constructor
      · rintro ⟨t, h, ht⟩
        cases t with
        | nil => exact absurd ht hP
        | cons a t => cases h; exact ⟨t, rfl, ht⟩
      · rintro ⟨t, rfl, ht⟩; exact ⟨l :: t, rfl, ht⟩
    rw [hdrop _ (nameRest_nil _ _ _ _ _)]
    cases m with
    | name =>
      unfold askName
      by_cases h1 : l ++ suffix = []
      · rw [if_pos h1, ihn]
        refine exists_congr fun t => and_congr_right fun _ => ?_
        constructor
        · intro h; exact .empty _ _ _ h1 h
        · intro h
          cases h with
          | empty _ _ h h' => exact h'
          | new _ h h' => exact absurd (h ▸ h1) h'
          | agreed _ _ h h' => exact absurd (h ▸ h1) h'
          | refused _ _ _ h => exact absurd h1 h
      · rw [if_neg h1]
        by_cases h2 : there (l ++ suffix) = true
        · rw [if_pos (by rw [h2]; rfl), ih (.confirm (l ++ suffix)) f rest (by rintro s ⟨⟩; exact ⟨h1, h2⟩)]
          refine exists_congr fun t => and_congr_right fun _ => ?_
          constructor
          · rintro (⟨rfl, h⟩ | ⟨a, b, rfl, h, h'⟩)
            · exact .agreed _ _ _ rfl h1 h2 h
            · exact .refused _ _ _ _ h1 h2 h h'
          · intro h
            cases h with
            | empty _ _ h h' => exact absurd h h1
            | new _ h h' h'' => rw [← h, h2] at h''; cases h''
            | agreed _ _ h h' h'' h3 => exact .inl ⟨h.symm, h3⟩
            | refused _ a b h h' h3 h4 => exact .inr ⟨a, b, rfl, h3, h4⟩
        · rw [if_neg (by simp [h2])]
          constructor
          · intro h; cases h; exact ⟨[], rfl, .new _ _ rfl h1 (by simpa using h2)⟩
          · rintro ⟨t, rfl, h⟩
            cases h with
            | empty _ _ h h' => exact absurd h h1
            | new _ h h' h'' => rw [h]; rfl
            | agreed _ _ h h' h'' h3 => rw [← h] at h''; exact absurd h'' h2
            | refused _ a b h h' h3 h4 => exact absurd h' h2
    | confirm s =>
      obtain ⟨hs1, hs2⟩ := hm s rfl
      unfold askName
      cases hy : yes? upper l with
      | none =>
        dsimp only
        rw [ih (.confirm s) f rest hm]
        refine exists_congr fun t => and_congr_right fun _ => ?_
        unfold NameRest
        constructor
        · rintro (⟨h, h'⟩ | ⟨a, b, rfl, h, h'⟩)
          · exact .inl ⟨h, (answered_cons _ _ _ _ hy).2 h'⟩
          · exact .inr ⟨l :: a, b, rfl, (answered_cons _ _ _ _ hy).2 h, h'⟩
        · rintro (⟨h, h'⟩ | ⟨a, b, e, h, h'⟩)
          · exact .inl ⟨h, (answered_cons _ _ _ _ hy).1 h'⟩
          · cases a with
            | nil => exact absurd h (not_answered_nil _ _)
            | cons c a => cases e; exact .inr ⟨a, b, rfl, (answered_cons _ _ _ _ hy).1 h, h'⟩
      | some c =>
        cases c with
        | true =>
          dsimp only
          constructor
          · intro h; cases h; exact ⟨[], rfl, .inl ⟨rfl, (answered_one _ _ _ _ _ hy).2 ⟨rfl, rfl⟩⟩⟩
          · rintro ⟨t, rfl, ⟨rfl, h'⟩ | ⟨a, b, e, h, h'⟩⟩
            · obtain ⟨-, rfl⟩ := (answered_one _ _ _ _ _ hy).1 h'; rfl
            · cases a with
              | nil => exact absurd h (not_answered_nil _ _)
              | cons c a => cases e; cases ((answered_one _ _ _ _ _ hy).1 h).1
        | false =>
          dsimp only
          rw [ihn]
          refine exists_congr fun t => and_congr_right fun _ => ?_
          unfold NameRest
          constructor
          · intro h; exact .inr ⟨[l], t, rfl, (answered_one _ _ _ _ _ hy).2 ⟨rfl, rfl⟩, h⟩
          · rintro (⟨h, h'⟩ | ⟨a, b, e, h, h'⟩)
            · cases ((answered_one _ _ _ _ _ hy).1 h').1
            · cases a with
              | nil => exact absurd h (not_answered_nil _ _)
              | cons c a =>
                cases e
                obtain ⟨-, rfl⟩ := (answered_one _ _ _ _ _ hy).1 h
                exact h'

/-- The name of a file is the one typed for it, up to the confirmation of an existing one. -/
theorem exact_name (upper : Str → Str) (there : Str → Bool) (name suffix : Str) : Exact (outName upper there name suffix) (NameTyped upper there name suffix) := by
  intro lines f rest
  unfold outName getOutputName NameTyped
  by_cases hn : name = []
  · subst hn
    simp only [ne_eq, not_true, if_false, if_true]
    refine Iff.trans ?_ (askName_exact upper there suffix lines .name f rest (by simp))
    cases askName upper there suffix .name true lines with
    | none => simp
    | some p => simp
  · rw [if_pos hn]
    simp only [if_neg hn]
    constructor
    · intro h; cases h; exact ⟨[], rfl, rfl, rfl⟩
    · rintro ⟨t, rfl, rfl, rfl⟩; rfl

/-! ## The two files of a graph -/

theorem askGraph_confirm (upper : Str → Str) (there clash : Str → Bool) (s : Str) (lines : List Str) (ck : Bool) :
    askGraph upper there clash (.confirm s) ck lines =
      match askYes upper lines with
      | .ok (true, rest) => if clash s then askGraph upper there clash (.over s) false rest else some (s, false, rest)
      | .ok (false, rest) => askGraph upper there clash .name true rest
      | .error _ => none := by
  induction lines with
  | nil => rfl
  | cons l ls ih =>
    conv_lhs => unfold askGraph
    conv_rhs => rw [askYes.eq_def]; dsimp only
    cases hy : yes? upper l with
    | none => exact ih
    | some b => cases b <;> rfl

theorem askGraph_over (upper : Str → Str) (there clash : Str → Bool) (s : Str) (lines : List Str) (ck : Bool) :
    askGraph upper there clash (.over s) ck lines =
      match askYes upper lines with
      | .ok (true, rest) => some (s, true, rest)
      | .ok (false, rest) => askGraph upper there clash .name false rest
      | .error _ => none := by
  induction lines generalizing ck with
  | nil => rfl
  | cons l ls ih =>
    conv_lhs => unfold askGraph
    conv_rhs => rw [askYes.eq_def]; dsimp only
    cases hy : yes? upper l with
    | none => exact ih false
    | some b => cases b <;> rfl

theorem askYes_shorter (upper : Str → Str) (lines : List Str) (b : Bool) (rest : List Str) (h : askYes upper lines = .ok (b, rest)) : rest.length < lines.length := by
  obtain ⟨t, rfl, ht⟩ := (exact_yes upper lines b rest).1 h
  cases t with
  | nil => exact absurd ht (not_answered_nil _ _)
  | cons a t => simp; omega

theorem answered_unique (upper : Str → Str) (b c : Bool) (s t r q : List Str) (hs : Answered upper b s) (ht : Answered upper c t) (e : s ++ r = t ++ q) :
    b = c ∧ s = t ∧ r = q := by
  have h1 := (exact_yes upper (s ++ r) b r).2 ⟨s, rfl, hs⟩
  have h2 := (exact_yes upper (s ++ r) c q).2 ⟨t, e, ht⟩
  rw [h1] at h2
  cases h2
  exact ⟨rfl, List.append_cancel_right e, rfl⟩

/-- What is typed after a name that is sure. -/
def Over (upper : Str → Str) (there clash : Str → Bool) (s f : Str) (o : Bool) (typed : List Str) : Prop :=
  clash s = false ∧ f = s ∧ o = false ∧ typed = [] ∨ clash s = true ∧ f = s ∧ o = true ∧ Answered upper true typed ∨
  clash s = true ∧ ∃ b t, typed = b ++ t ∧ Answered upper false b ∧ GraphAsked upper there clash false f o t

theorem over_exact (upper : Str → Str) (there clash : Str → Bool) (n : Nat)
    (ih : ∀ (lines : List Str), lines.length < n → ∀ (ck : Bool) (f : Str) (o : Bool) (rest : List Str),
      askGraph upper there clash .name ck lines = some (f, o, rest) ↔ ∃ typed, lines = typed ++ rest ∧ GraphAsked upper there clash ck f o typed)
    (s : Str) (lines : List Str) (hl : lines.length ≤ n) (f : Str) (o : Bool) (rest : List Str) :
    (if clash s then askGraph upper there clash (.over s) false lines else some (s, false, lines)) = some (f, o, rest) ↔
      ∃ typed, lines = typed ++ rest ∧ Over upper there clash s f o typed := by
  unfold Over
  cases hc : clash s with
  | false =>
    simp only [Bool.false_eq_true, if_false, true_and, false_and, or_false, Option.some.injEq, Prod.mk.injEq]
    constructor
    · rintro ⟨rfl, rfl, rfl⟩; exact ⟨[], rfl, rfl, rfl, rfl⟩
    · rintro ⟨_, rfl, rfl, rfl, rfl⟩; exact ⟨rfl, rfl, rfl⟩
  | true =>
    simp only [if_true, reduceCtorEq, false_and, false_or, true_and]
    rw [askGraph_over]
    cases hy : askYes upper lines with
    | error e =>
      simp only [reduceCtorEq, false_iff]
      rintro ⟨t, rfl, ⟨-, -, hb⟩ | ⟨b, t, rfl, hb, -⟩⟩
      · rw [(exact_yes upper (t ++ rest) true rest).2 ⟨t, rfl, hb⟩] at hy; cases hy
      · rw [(exact_yes upper (b ++ t ++ rest) false (t ++ rest)).2 ⟨b, by simp, hb⟩] at hy; cases hy
    | ok p =>
      obtain ⟨b, ls⟩ := p
      have hlt := askYes_shorter upper lines b ls hy
      obtain ⟨a, rfl, ha⟩ := (exact_yes upper lines b ls).1 hy
      cases b with
      | true =>
        simp only [Option.some.injEq, Prod.mk.injEq]
        constructor
        · rintro ⟨rfl, rfl, rfl⟩; exact ⟨a, rfl, .inl ⟨rfl, rfl, ha⟩⟩
        · rintro ⟨t, e, ⟨rfl, rfl, hb⟩ | ⟨b, t, rfl, hb, -⟩⟩
          · exact ⟨rfl, rfl, (answered_unique _ _ _ _ _ _ _ ha hb e).2.2⟩
          · rw [List.append_assoc] at e
            cases (answered_unique _ _ _ _ _ _ _ ha hb e).1
      | false =>
        dsimp only
        rw [ih ls (by omega)]
        constructor
        · rintro ⟨t, rfl, ht⟩; exact ⟨a ++ t, by simp, .inr ⟨a, t, rfl, ha, ht⟩⟩
        · rintro ⟨t, e, ⟨rfl, rfl, hb⟩ | ⟨b, t, rfl, hb, ht⟩⟩
          · cases (answered_unique _ _ _ _ _ _ _ ha hb e).1
          · rw [List.append_assoc] at e
            exact ⟨t, (answered_unique _ _ _ _ _ _ _ ha hb e).2.2, ht⟩

theorem not_graphAsked_nil (upper : Str → Str) (there clash : Str → Bool) (ck : Bool) (f : Str) (o : Bool) : ¬ GraphAsked upper there clash ck f o [] := by
  generalize hx : ([] : List Str) = x
  intro h
  cases h with
  | empty => cases hx
  | declined => cases hx
  | new _ _ _ hs => obtain ⟨_, _, e, _⟩ := hs; rw [e] at hx; cases hx
  | agreed _ _ _ _ hs => obtain ⟨_, _, e, _⟩ := hs; rw [e] at hx; cases hx
  | refused _ _ _ _ _ _ _ hs => obtain ⟨_, _, e, _⟩ := hs; rw [e] at hx; cases hx

theorem graphAsked_cons (upper : Str → Str) (there clash : Str → Bool) (ck : Bool) (f : Str) (o : Bool) (l : Str) (t : List Str) :
    GraphAsked upper there clash ck f o (l :: t) ↔
      l = [] ∧ GraphAsked upper there clash true f o t ∨
      l ≠ [] ∧ there l = true ∧ ck = true ∧ (∃ a b, t = a ++ b ∧ Answered upper false a ∧ GraphAsked upper there clash true f o b) ∨
      l ≠ [] ∧ ∃ a b, t = a ++ b ∧ (¬ (there l = true ∧ ck = true) ∧ a = [] ∨ there l = true ∧ ck = true ∧ Answered upper true a) ∧ Over upper there clash l f o b := by
  constructor
  · generalize hx : l :: t = x
    intro h
    cases h with
    | empty _ _ _ _ h => cases hx; exact .inl ⟨rfl, h⟩
    | declined _ _ _ _ a b h1 h2 h3 h4 h5 => cases hx; exact .inr (.inl ⟨h1, h2, h3, a, b, rfl, h4, h5⟩)
    | new _ _ _ hs hc =>
      obtain ⟨h0, a, e, h⟩ := hs
      rw [e] at hx
      cases hx
      exact .inr (.inr ⟨h0, t, [], by simp, h, .inl ⟨hc, rfl, rfl, rfl⟩⟩)
    | agreed _ _ _ b hs hc hb =>
      obtain ⟨h0, a, e, h⟩ := hs
      rw [e] at hx
      cases hx
      exact .inr (.inr ⟨h0, a, b, rfl, h, .inr (.inl ⟨hc, rfl, rfl, hb⟩)⟩)
    | refused _ _ _ _ _ b u hs hc hb hu =>
      obtain ⟨h0, a, e, h⟩ := hs
      rw [e] at hx
      simp only [List.cons_append, List.cons.injEq] at hx
      obtain ⟨rfl, rfl⟩ := hx
      exact .inr (.inr ⟨h0, a, b ++ u, by simp, h, .inr (.inr ⟨hc, b, u, rfl, hb, hu⟩)⟩)
  · rintro (⟨rfl, h⟩ | ⟨h0, h1, h2, a, b, rfl, h3, h4⟩ | ⟨h0, a, b, rfl, h, ho⟩)
    · exact .empty _ _ _ _ h
    · exact .declined _ _ _ _ _ _ h0 h1 h2 h3 h4
    · have hs : Sure upper there ck l (l :: a) := ⟨h0, a, rfl, h⟩
      rcases ho with ⟨hc, rfl, rfl, rfl⟩ | ⟨hc, rfl, rfl, hb⟩ | ⟨hc, c, d, rfl, hb, hd⟩
      · rw [List.append_nil]; exact .new _ _ _ hs hc
      · exact .agreed _ _ (f :: a) _ hs hc hb
      · have := GraphAsked.refused ck f l o (l :: a) c d hs hc hb hd
        simpa using this

theorem askGraph_exact (upper : Str → Str) (there clash : Str → Bool) (n : Nat) : ∀ (lines : List Str), lines.length < n → ∀ (ck : Bool) (f : Str) (o : Bool) (rest : List Str),
      askGraph upper there clash .name ck lines = some (f, o, rest) ↔ ∃ typed, lines = typed ++ rest ∧ GraphAsked upper there clash ck f o typed := by
  induction n with
  | zero => intro lines h; omega
  | succ n ih =>
    intro lines hlen ck f o rest
    cases lines with
    | nil =>
      simp only [askGraph, reduceCtorEq, false_iff]
      rintro ⟨t, h, ht⟩
      obtain ⟨rfl, -⟩ := List.append_eq_nil_iff.1 h.symm
      exact not_graphAsked_nil _ _ _ _ _ _ ht
    | cons l ls =>
      have hls : ls.length < n := by simp at hlen; omega
      have hdrop : (∃ typed, l :: ls = typed ++ rest ∧ GraphAsked upper there clash ck f o typed) ↔
          ∃ t, ls = t ++ rest ∧ GraphAsked upper there clash ck f o (l :: t) := by
        constructor
        · rintro ⟨t, h, ht⟩
          cases t with
          | nil => exact absurd ht (not_graphAsked_nil _ _ _ _ _ _)
          | cons a t => cases h; exact ⟨t, rfl, ht⟩
        · rintro ⟨t, rfl, ht⟩; exact ⟨l :: t, rfl, ht⟩
      rw [hdrop]
      simp only [graphAsked_cons]
      unfold askGraph
      by_cases h0 : l = []
      · rw [if_pos h0, ih ls hls]
        simp only [h0, true_and, ne_eq, not_true, false_and, or_false]
      · rw [if_neg h0]
        simp only [h0, false_and, ne_eq, not_false_eq_true, true_and, false_or]
        by_cases h1 : there l = true ∧ ck = true
        · rw [if_pos (by simp [h1.1, h1.2]), askGraph_confirm]
          simp only [h1.1, h1.2, true_and, and_self, not_true, false_and, false_or]
          cases hy : askYes upper ls with
          | error e =>
            simp only [reduceCtorEq, false_iff]
            rintro ⟨t, rfl, ⟨a, b, rfl, ha, -⟩ | ⟨a, b, rfl, ha, -⟩⟩
            · rw [(exact_yes upper (a ++ b ++ rest) false (b ++ rest)).2 ⟨a, by simp, ha⟩] at hy; cases hy
            · rw [(exact_yes upper (a ++ b ++ rest) true (b ++ rest)).2 ⟨a, by simp, ha⟩] at hy; cases hy
          | ok p =>
            obtain ⟨c, ms⟩ := p
            have hlt := askYes_shorter upper ls c ms hy
            obtain ⟨a, rfl, ha⟩ := (exact_yes upper ls c ms).1 hy
            cases c with
            | true =>
              dsimp only
              rw [over_exact upper there clash n ih l ms (by omega)]
              constructor
              · rintro ⟨t, rfl, ht⟩; exact ⟨a ++ t, by simp, .inr ⟨a, t, rfl, ha, ht⟩⟩
              · rintro ⟨t, e, ⟨b, u, rfl, hb, -⟩ | ⟨b, u, rfl, hb, hu⟩⟩
                · rw [List.append_assoc] at e
                  cases (answered_unique _ _ _ _ _ _ _ ha hb e).1
                · rw [List.append_assoc] at e
                  exact ⟨u, (answered_unique _ _ _ _ _ _ _ ha hb e).2.2, hu⟩
            | false =>
              dsimp only
              rw [ih ms (by omega)]
              constructor
              · rintro ⟨t, rfl, ht⟩; exact ⟨a ++ t, by simp, .inl ⟨a, t, rfl, ha, ht⟩⟩
              · rintro ⟨t, e, ⟨b, u, rfl, hb, hu⟩ | ⟨b, u, rfl, hb, -⟩⟩
                · rw [List.append_assoc] at e
                  exact ⟨u, (answered_unique _ _ _ _ _ _ _ ha hb e).2.2, hu⟩
                · rw [List.append_assoc] at e
                  cases (answered_unique _ _ _ _ _ _ _ ha hb e).1
        · rw [if_neg (by simpa using h1), over_exact upper there clash n ih l ls (by omega)]
          refine exists_congr fun t => and_congr_right fun _ => ?_
          constructor
          · intro h; exact .inr ⟨[], t, rfl, .inl ⟨h1, rfl⟩, h⟩
          · rintro (⟨h2, h3, -⟩ | ⟨a, b, rfl, ⟨-, rfl⟩ | ⟨h2, h3, -⟩, h⟩)
            · exact absurd ⟨h2, h3⟩ h1
            · exact h
            · exact absurd ⟨h2, h3⟩ h1

/-- The names of the two files of a graph are the ones typed for them, up to the confirmation of existing ones. -/
theorem graph_exact (upper : Str → Str) (there clash : Str → Bool) (name : Str) (lines : List Str) (f : Str) (o : Bool) (rest : List Str) :
    writeGraphAs upper there clash name lines = some (f, o, rest) ↔ ∃ typed, lines = typed ++ rest ∧ GraphTyped upper there clash name f o typed := by
  unfold writeGraphAs GraphTyped
  by_cases hn : name = []
  · subst hn
    simp only [ne_eq, not_true, if_false, if_true]
    exact askGraph_exact upper there clash (lines.length + 1) lines (by omega) false f o rest
  · rw [if_pos hn]
    simp only [if_neg hn]
    constructor
    · intro h; cases h; exact ⟨[], rfl, rfl, rfl, rfl⟩
    · rintro ⟨t, rfl, rfl, rfl, rfl⟩; rfl

/-! ## Jobs and output -/

theorem exact_line (manual : Str) : Exact (fun lines => match lines with
      | [] => .error .eof
      | l :: lines => .ok ((Job.review (if l = [] then manual else l), false), lines))
    (fun y typed => ∃ l, typed = [l] ∧ y = (Job.review (if l = [] then manual else l), false)) := by
  intro lines y rest
  cases lines with
  | nil =>
    simp only [reduceCtorEq, false_iff]
    rintro ⟨t, h, l, rfl, -⟩
    cases h
  | cons l ls =>
    constructor
    · intro h; cases h; exact ⟨[l], rfl, l, rfl, rfl⟩
    · rintro ⟨t, h, l', rfl, rfl⟩; cases h; rfl

/-- **C87**, the collection. What is done with the collection is what was chosen in the menu, with the file named for it, and a network is made afterwards exactly for the entries that
say so. -/
theorem C87_job (upper : Str → Str) (there : Str → Bool) (name manual : Str) (lines rest : List Str) (job : Job) (net : Bool) :
    getWhatToDo upper there name manual lines = .ok ((job, net), rest) ↔
      ∃ typed, lines = typed ++ rest ∧ JobTyped upper (NameTyped upper there name) manual job net typed := by
  have hb := exact_bind (exact_menu [['1'], ['2'], ['3'], ['4'], ['5'], ['6'], ['7']])
    (g := fun n lines =>
      if n = ['1'] then .ok ((Job.nothing, true), lines)
      else if n = ['2'] ∨ n = ['3'] then outName upper there name ".txt".toList lines >>= fun p => .ok ((Job.writeFile p.1, decide (n = ['3'])), p.2)
      else if n = ['4'] ∨ n = ['5'] then outName upper there name ".csv".toList lines >>= fun p => .ok ((Job.writeCSV p.1, decide (n = ['5'])), p.2)
      else if n = ['6'] then askYes upper lines >>= fun q => outName upper there name ".csv".toList q.2 >>= fun p => .ok ((Job.citations q.1 p.1, false), p.2)
      else match lines with
        | [] => .error .eof
        | l :: lines => .ok ((Job.review (if l = [] then manual else l), false), lines))
    (S := fun n y typed =>
      if n = ['1'] then y = (Job.nothing, true) ∧ typed = []
      else if n = ['2'] ∨ n = ['3'] then
        ∃ f a b, typed = a ++ b ∧ NameTyped upper there name ".txt".toList f a ∧ y = (Job.writeFile f, decide (n = ['3'])) ∧ b = []
      else if n = ['4'] ∨ n = ['5'] then
        ∃ f a b, typed = a ++ b ∧ NameTyped upper there name ".csv".toList f a ∧ y = (Job.writeCSV f, decide (n = ['5'])) ∧ b = []
      else if n = ['6'] then
        ∃ j a b, typed = a ++ b ∧ Answered upper j a ∧ ∃ f c d, b = c ++ d ∧ NameTyped upper there name ".csv".toList f c ∧ y = (Job.citations j f, false) ∧ d = []
      else ∃ l, typed = [l] ∧ y = (Job.review (if l = [] then manual else l), false))
    (by
      intro n _ _
      split
      · exact exact_pure _
      · split
        · exact exact_bind (exact_name upper there name ".txt".toList) (fun f _ _ => exact_pure (Job.writeFile f, decide (n = ['3'])))
        · split
          · exact exact_bind (exact_name upper there name ".csv".toList) (fun f _ _ => exact_pure (Job.writeCSV f, decide (n = ['5'])))
          · split
            · exact exact_bind (exact_yes upper) (fun j _ _ => exact_bind (exact_name upper there name ".csv".toList)
                (fun f _ _ => exact_pure (Job.citations j f, false)))
            · exact exact_line manual)
  refine (exact_congr (S := fun y typed => JobTyped upper (NameTyped upper there name) manual y.1 y.2 typed) hb ?_ ?_) lines (job, net) rest
  · intro l; rfl
  · rintro ⟨x, net⟩ t
    constructor
    · cases x with
      | nothing =>
        rintro ⟨h, hp⟩
        dsimp only at h; subst h
        exact ⟨['1'], t, [], by simp, hp, by simp⟩
      | writeFile f =>
        rintro ⟨a, b, rfl, hp, ht⟩
        cases net with
        | true => exact ⟨['3'], a, b, rfl, hp, by rw [if_neg (by decide), if_pos (by decide)]; exact ⟨f, b, [], by simp, ht, rfl, rfl⟩⟩
        | false => exact ⟨['2'], a, b, rfl, hp, by rw [if_neg (by decide), if_pos (by decide)]; exact ⟨f, b, [], by simp, ht, rfl, rfl⟩⟩
      | writeCSV f =>
        rintro ⟨a, b, rfl, hp, ht⟩
        cases net with
        | true =>
          exact ⟨['5'], a, b, rfl, hp, by rw [if_neg (by decide), if_neg (by decide), if_pos (by decide)]; exact ⟨f, b, [], by simp, ht, rfl, rfl⟩⟩
        | false =>
          exact ⟨['4'], a, b, rfl, hp, by rw [if_neg (by decide), if_neg (by decide), if_pos (by decide)]; exact ⟨f, b, [], by simp, ht, rfl, rfl⟩⟩
      | citations j f =>
        rintro ⟨h, a, b, c, rfl, hp, hy, ht⟩
        dsimp only at h; subst h
        exact ⟨['6'], a, b ++ c, by simp, hp, by
          rw [if_neg (by decide), if_neg (by decide), if_neg (by decide), if_pos (by decide)]
          exact ⟨j, b, c, rfl, hy, f, c, [], by simp, ht, rfl, rfl⟩⟩
      | review db =>
        rintro ⟨h, a, l, rfl, hp, hl⟩
        dsimp only at h; subst h
        refine ⟨['7'], a, [l], rfl, hp, ?_⟩
        rw [if_neg (by decide), if_neg (by decide), if_neg (by decide), if_neg (by decide)]
        refine ⟨l, rfl, ?_⟩
        rcases hl with ⟨rfl, rfl⟩ | ⟨h, rfl⟩
        · rfl
        · rw [if_neg h]
    · rintro ⟨n, a, b, rfl, hp, hs⟩
      split at hs
      · next h =>
        subst h
        obtain ⟨h, rfl⟩ := hs
        cases h
        exact ⟨rfl, by rw [List.append_nil]; exact hp⟩
      · split at hs
        · next h =>
          obtain ⟨f, c, d, rfl, ht, h', rfl⟩ := hs
          cases h'
          rcases h with rfl | rfl
          · exact ⟨a, c, by simp, hp, ht⟩
          · exact ⟨a, c, by simp, hp, ht⟩
        · split at hs
          · next h =>
            obtain ⟨f, c, d, rfl, ht, h', rfl⟩ := hs
            cases h'
            rcases h with rfl | rfl
            · exact ⟨a, c, by simp, hp, ht⟩
            · exact ⟨a, c, by simp, hp, ht⟩
          · split at hs
            · next h =>
              subst h
              obtain ⟨j, c, d, rfl, hy, f, e, g, rfl, ht, h', rfl⟩ := hs
              cases h'
              exact ⟨rfl, a, c, e, by simp, hp, hy, ht⟩
            · next h1 h2 h3 h4 =>
              obtain ⟨l, rfl, h'⟩ := hs
              cases h'
              have : n = ['7'] := by
                obtain ⟨_, _, hk, _⟩ := hp
                simp only [List.mem_cons, List.not_mem_nil, or_false] at hk
                simp only [not_or] at h2 h3
                simpa [h1, h2, h3, h4] using hk
              subst this
              refine ⟨rfl, a, l, rfl, hp, ?_⟩
              by_cases hl : l = []
              · exact .inl ⟨hl, if_pos hl⟩
              · exact .inr ⟨hl, if_neg hl⟩

/-- The last choice of an output. -/
def LastOut (Named : Str → Str → List Str → Prop) (NamedBoth : Str → Bool → List Str → Prop) (keys : List Str) (o : Output) (a b : List Str) : Prop :=
  match o with
  | .both f over => Picked keys "1".toList a ∧ NamedBoth f over b
  | .edges f => Picked keys "2".toList a ∧ Named ".csv".toList f b
  | .nodes f => Picked keys "3".toList a ∧ Named ".csv".toList f b
  | .graphml f => Picked keys "4".toList a ∧ Named ".graphml".toList f b

theorem outTyped_iff (Named : Str → Str → List Str → Prop) (NamedBoth : Str → Bool → List Str → Prop) (contour : Bool) (o : Output) (typed : List Str)
    (keys : List Str) (hk : keys = (if contour then [['0']] else []) ++ [['1'], ['2'], ['3'], ['4']]) :
    OutTyped Named NamedBoth contour o typed ↔
      (∃ a b, typed = a ++ b ∧ LastOut Named NamedBoth keys o a b) ∨
      ∃ a b, typed = a ++ b ∧ contour = true ∧ Picked keys ['0'] a ∧ OutTyped Named NamedBoth contour o b := by
  constructor
  · rintro ⟨keys', rfl, shows, a, b, rfl, hs, ho⟩
    have e : (if contour = true then ["0".toList] else []) ++ List.map String.toList ["1", "2", "3", "4"] = keys := by rw [hk]; rfl
    rw [e] at hs ho
    cases shows with
    | nil => exact .inl ⟨a, b, rfl, by cases o <;> exact ho⟩
    | cons s shows =>
      refine .inr ⟨s, shows.flatten ++ a ++ b, by simp, (hs s (by simp)).1, (hs s (by simp)).2, keys, ?_, shows, a, b, rfl, fun t ht => hs t (by simp [ht]), ho⟩
      exact e.symm
  · have e : keys = (if contour = true then ["0".toList] else []) ++ List.map String.toList ["1", "2", "3", "4"] := by rw [hk]; rfl
    rintro (⟨a, b, rfl, ho⟩ | ⟨a, b, rfl, hc, hp, keys', rfl, shows, c, d, rfl, hs, ho⟩)
    · exact ⟨keys, e, [], a, b, rfl, by simp, by cases o <;> exact ho⟩
    · refine ⟨keys, e, a :: shows, c, d, by simp, ?_, by rw [e]; exact ho⟩
      intro s hs'
      rcases List.mem_cons.1 hs' with rfl | hs'
      · exact ⟨hc, hp⟩
      · rw [e]; exact hs s hs'

/-- **C87**, the output. What is written of a network is what was chosen in the menu, under the name typed for it; looking at the network first changes nothing. -/
theorem C87_output (upper : Str → Str) (there clash : Str → Bool) (contour : Bool) (name : Str) (fuel : Nat) (lines rest : List Str) (hf : lines.length < fuel) (o : Output) :
    outputNetwork upper there clash contour name fuel lines = .ok (o, rest) ↔
      ∃ typed, lines = typed ++ rest ∧ OutTyped (NameTyped upper there name) (GraphTyped upper there clash name) contour o typed := by
  induction fuel generalizing lines with
  | zero => omega
  | succ fuel ih =>
    generalize hk : (if contour then [['0']] else []) ++ [['1'], ['2'], ['3'], ['4']] = keys
    rw [exists_congr (fun t => and_congr_right fun _ => outTyped_iff (NameTyped upper there name) (GraphTyped upper there clash name) contour o t keys hk.symm)]
    unfold outputNetwork
    rw [hk]
    cases hm : menu keys lines with
    | error e =>
      have hno : ∀ n a b, lines = a ++ b → ¬ Picked keys n a := by
        rintro n a b rfl hp
        rw [(exact_menu keys (a ++ b) n b).2 ⟨a, rfl, hp⟩] at hm; cases hm
      constructor
      · intro h; cases h
      · rintro ⟨t, rfl, ⟨a, b, rfl, h⟩ | ⟨a, b, rfl, -, h, -⟩⟩
        · rw [List.append_assoc] at hno
          cases o <;> exact absurd h.1 (hno _ _ _ rfl)
        · rw [List.append_assoc] at hno
          exact absurd h (hno _ _ _ rfl)
    | ok p =>
      obtain ⟨n, ls⟩ := p
      obtain ⟨a, rfl, ha⟩ := (exact_menu keys lines n ls).1 hm
      have huniq : ∀ n' c d, a ++ ls = c ++ d → Picked keys n' c → n' = n ∧ d = ls := by
        intro n' c d e hp
        have := (exact_menu keys (a ++ ls) n' d).2 ⟨c, e, hp⟩
        rw [hm] at this
        cases this
        exact ⟨rfl, rfl⟩
      have hlen : ls.length < (a ++ ls).length := by
        obtain ⟨j, rfl, -⟩ := ha
        simp
        omega
      have hn : n = ['0'] ∧ contour = true ∨ n ∈ [['1'], ['2'], ['3'], ['4']] := by
        obtain ⟨_, _, h, _⟩ := ha
        rw [← hk] at h
        cases contour with
        | true =>
          rcases List.mem_append.1 h with h | h
          · simp only [if_true, List.mem_singleton] at h
            exact .inl ⟨h, rfl⟩
          · exact .inr h
        | false => exact .inr (by simpa using h)
      show (if n = ['0'] then _ else _) = _ ↔ _
      by_cases h0 : n = ['0']
      · rw [if_pos h0]
        subst h0
        have hc : contour = true := by
          rcases hn with h | h
          · exact h.2
          · exact absurd h (by decide)
        rw [ih ls (by omega)]
        constructor
        · rintro ⟨t, rfl, h⟩; exact ⟨a ++ t, by simp, .inr ⟨a, t, rfl, hc, ha, h⟩⟩
        · rintro ⟨t, e, ⟨c, d, rfl, h⟩ | ⟨c, d, rfl, -, h, ho⟩⟩
          · rw [List.append_assoc] at e
            cases o <;> exact absurd (huniq _ _ _ e h.1).1 (by decide)
          · rw [List.append_assoc] at e
            exact ⟨d, (huniq _ _ _ e h).2.symm, ho⟩
      · rw [if_neg h0]
        have hred : (∃ typed, a ++ ls = typed ++ rest ∧ ((∃ a b, typed = a ++ b ∧ LastOut (NameTyped upper there name) (GraphTyped upper there clash name) keys o a b) ∨
            ∃ a b, typed = a ++ b ∧ contour = true ∧ Picked keys ['0'] a ∧ OutTyped (NameTyped upper there name) (GraphTyped upper there clash name) contour o b)) ↔
            ∃ b, ls = b ++ rest ∧ LastOut (NameTyped upper there name) (GraphTyped upper there clash name) keys o a b := by
          constructor
          · rintro ⟨t, e, ⟨c, d, rfl, h⟩ | ⟨c, d, rfl, -, h, ho⟩⟩
            · have e' : a ++ ls = c ++ (d ++ rest) := by rw [e, List.append_assoc]
              have hd : ls = d ++ rest := by cases o <;> exact (huniq _ _ _ e' h.1).2.symm
              subst hd
              obtain rfl : a = c := by
                exact List.append_cancel_right e'
              exact ⟨d, rfl, h⟩
            · rw [List.append_assoc] at e
              exact absurd (huniq _ _ _ e h).1.symm h0
          · rintro ⟨b, rfl, h⟩
            exact ⟨a ++ b, by simp, .inl ⟨a, b, rfl, h⟩⟩
        rw [hred]
        have hp : ∀ n', Picked keys n' a ↔ n' = n := by
          intro n'
          constructor
          · intro h; exact (huniq n' a ls rfl h).1
          · rintro rfl; exact ha
        have hn : n ∈ [['1'], ['2'], ['3'], ['4']] := by
          rcases hn with h | h
          · exact absurd h.1 h0
          · exact h
        have hN : ∀ suffix (mk : Str → Output) , (outName upper there name suffix ls >>= fun p => (.ok (mk p.1, p.2) : Except Stop (Output × List Str))) = .ok (o, rest) ↔
            ∃ b, ls = b ++ rest ∧ ∃ f, o = mk f ∧ NameTyped upper there name suffix f b := by
          intro suffix mk
          rw [exact_bind (exact_name upper there name suffix) (fun f _ _ => exact_pure (mk f)) ls o rest]
          refine exists_congr fun b => and_congr_right fun _ => ?_
          constructor
          · rintro ⟨f, c, d, rfl, h, rfl, rfl⟩; exact ⟨f, rfl, by rw [List.append_nil]; exact h⟩
          · rintro ⟨f, rfl, h⟩; exact ⟨f, b, [], by simp, h, rfl, rfl⟩
        by_cases h1 : n = ['1']
        · rw [if_pos h1]
          have : (match writeGraphAs upper there clash name ls with
              | some (f, o, lines) => (.ok (.both f o, lines) : Except Stop (Output × List Str))
              | none => .error .eof) = .ok (o, rest) ↔ ∃ f w, o = .both f w ∧ writeGraphAs upper there clash name ls = some (f, w, rest) := by
            cases writeGraphAs upper there clash name ls with
            | none => simp
            | some q =>
              obtain ⟨f, w, r⟩ := q
              constructor
              · intro h; cases h; exact ⟨f, w, rfl, rfl⟩
              · rintro ⟨f', w', rfl, h⟩; cases h; rfl
          refine this.trans ?_
          constructor
          · rintro ⟨f, w, rfl, h⟩
            obtain ⟨b, rfl, hb⟩ := (graph_exact upper there clash name ls f w rest).1 h
            exact ⟨b, rfl, (hp _).2 h1.symm, hb⟩
          · rintro ⟨b, rfl, h⟩
            cases o with
            | both f w => exact ⟨f, w, rfl, (graph_exact upper there clash name _ f w rest).2 ⟨b, rfl, h.2⟩⟩
            | edges f => have := (hp _).1 h.1; rw [h1] at this; exact absurd this (by decide)
            | nodes f => have := (hp _).1 h.1; rw [h1] at this; exact absurd this (by decide)
            | graphml f => have := (hp _).1 h.1; rw [h1] at this; exact absurd this (by decide)
        · rw [if_neg h1]
          by_cases h2 : n = ['2']
          · rw [if_pos h2]
            refine (hN _ .edges).trans ?_
            refine exists_congr fun b => and_congr_right fun _ => ?_
            constructor
            · rintro ⟨f, rfl, h⟩; exact ⟨(hp _).2 h2.symm, h⟩
            · intro h
              cases o with
              | edges f => exact ⟨f, rfl, h.2⟩
              | both f w => have := (hp _).1 h.1; rw [h2] at this; exact absurd this (by decide)
              | nodes f => have := (hp _).1 h.1; rw [h2] at this; exact absurd this (by decide)
              | graphml f => have := (hp _).1 h.1; rw [h2] at this; exact absurd this (by decide)
          · rw [if_neg h2]
            by_cases h3 : n = ['3']
            · rw [if_pos h3]
              refine (hN _ .nodes).trans ?_
              refine exists_congr fun b => and_congr_right fun _ => ?_
              constructor
              · rintro ⟨f, rfl, h⟩; exact ⟨(hp _).2 h3.symm, h⟩
              · intro h
                cases o with
                | nodes f => exact ⟨f, rfl, h.2⟩
                | both f w => have := (hp _).1 h.1; rw [h3] at this; exact absurd this (by decide)
                | edges f => have := (hp _).1 h.1; rw [h3] at this; exact absurd this (by decide)
                | graphml f => have := (hp _).1 h.1; rw [h3] at this; exact absurd this (by decide)
            · rw [if_neg h3]
              have h4 : n = ['4'] := by
                simp only [List.mem_cons, List.not_mem_nil, or_false] at hn
                simpa [h1, h2, h3] using hn
              refine (hN _ .graphml).trans ?_
              refine exists_congr fun b => and_congr_right fun _ => ?_
              constructor
              · rintro ⟨f, rfl, h⟩; exact ⟨(hp _).2 h4.symm, h⟩
              · intro h
                cases o with
                | graphml f => exact ⟨f, rfl, h.2⟩
                | both f w => have := (hp _).1 h.1; rw [h4] at this; exact absurd this (by decide)
                | edges f => have := (hp _).1 h.1; rw [h4] at this; exact absurd this (by decide)
                | nodes f => have := (hp _).1 h.1; rw [h4] at this; exact absurd this (by decide)

/-! ## Files -/

theorem readAll_ok {ρ : Type} [DecidableEq ρ] (full : Str → Str) (there : Str → Bool) (read : Str → Option (List ρ)) (files : List Str) (acc rs : List ρ) (hacc : acc.Nodup)
    (h : readAll full there read files acc = .ok rs) :
    rs.Nodup ∧ (∀ f ∈ files, there (full f) = true ∧ (read (full f)).isSome = true) ∧
      ∀ r, r ∈ rs ↔ r ∈ acc ∨ ∃ f ∈ files, ∃ l, read (full f) = some l ∧ r ∈ l := by
  induction files generalizing acc with
  | nil =>
    cases h
    exact ⟨hacc, by simp, by simp⟩
  | cons f fs ih =>
    unfold readAll at h
    split at h
    · next hf =>
      cases hr : read (full f) with
      | none => rw [hr] at h; cases h
      | some l =>
        rw [hr] at h
        obtain ⟨h1, h2, h3⟩ := ih _ (by
          rw [List.nodup_append]
          refine ⟨hacc, (List.nodup_dedup l).filter _, ?_⟩
          rintro a ha b hb rfl
          rw [List.mem_filter] at hb
          exact absurd ha (of_decide_eq_true hb.2)) h
        refine ⟨h1, ?_, ?_⟩
        · intro g hg
          rcases List.mem_cons.1 hg with rfl | hg
          · exact ⟨hf, by rw [hr]; rfl⟩
          · exact h2 g hg
        · intro r
          rw [h3]
          simp only [List.mem_append, List.mem_filter, List.mem_dedup, decide_eq_true_eq, List.mem_cons, exists_eq_or_imp]
          constructor
          · rintro ((h | ⟨h, -⟩) | h)
            · exact .inl h
            · exact .inr (.inl ⟨l, hr, h⟩)
            · exact .inr (.inr h)
          · rintro (h | ⟨m, hm, h⟩ | h)
            · exact .inl (.inl h)
            · rw [hr] at hm
              cases hm
              by_cases hra : r ∈ acc
              · exact .inl (.inl hra)
              · exact .inl (.inr ⟨h, hra⟩)
            · exact .inr h
    · cases h

/-- **C87**, the files given on the command line. All of them exist and the collection holds exactly the records of all of them, each once; nothing is asked. -/
theorem C87_files {ρ : Type} [DecidableEq ρ] (full : Str → Str) (there : Str → Bool) (read : Str → Option (List ρ)) (files lines rest : List Str) (hne : files ≠ []) (rs : List ρ)
    (h : getFiles full there read files lines = .ok (rs, rest)) :
    rest = lines ∧ rs.Nodup ∧ (∀ f ∈ files, there (full f) = true) ∧ ∀ r, r ∈ rs ↔ ∃ f ∈ files, ∃ l, read (full f) = some l ∧ r ∈ l := by
  unfold getFiles at h
  rw [if_neg hne] at h
  cases hr : readAll full there read files [] with
  | error e => rw [hr] at h; cases h
  | ok l =>
    rw [hr] at h
    cases h
    obtain ⟨h1, h2, h3⟩ := readAll_ok full there read files [] rs List.nodup_nil hr
    exact ⟨rfl, h1, fun f hf => (h2 f hf).1, fun r => by rw [h3]; simp⟩

/-- With a file that does not exist there is no collection. -/
theorem C87_missing {ρ : Type} [DecidableEq ρ] (full : Str → Str) (there : Str → Bool) (read : Str → Option (List ρ)) (pre post : List Str) (f : Str) (lines : List Str)
    (hpre : ∀ g ∈ pre, there (full g) = true ∧ (read (full g)).isSome = true) (hf : there (full f) = false) :
    getFiles full there read (pre ++ f :: post) lines = .error (.missing (full f)) := by
  unfold getFiles
  rw [if_neg (by simp)]
  suffices H : ∀ acc : List ρ, readAll full there read (pre ++ f :: post) acc = .error (.missing (full f)) by rw [H]; rfl
  intro acc
  induction pre generalizing acc with
  | nil => show (if _ then _ else _) = _; rw [if_neg (by rw [hf]; simp)]
  | cons g pre ih =>
    obtain ⟨h1, h2⟩ := hpre g (by simp)
    obtain ⟨l, hl⟩ := Option.isSome_iff_exists.1 h2
    rw [List.cons_append]
    unfold readAll
    rw [if_pos h1, hl]
    exact ih (fun g hg => hpre g (by simp [hg])) _

/-- **C87**, the files typed. The first line all of whose paths, separated by blanks, exist gives the files. -/
theorem C87_files_asked {ρ : Type} [DecidableEq ρ] (full : Str → Str) (hfull : ∀ f, full (full f) = full f) (there : Str → Bool) (read : Str → Option (List ρ))
    (lines rest : List Str) (rs : List ρ) (h : getFiles full there read [] lines = .ok (rs, rest)) :
    ∃ junk paths, lines = junk ++ Str.join [' '] paths :: rest ∧ paths ≠ [] ∧ (∀ p ∈ paths, ' ' ∉ p ∧ there (full p) = true) ∧
      (∀ l ∈ junk, ∃ paths, l = Str.join [' '] paths ∧ (∀ p ∈ paths, ' ' ∉ p) ∧ ∃ p ∈ paths, there (full p) = false) ∧
      rs.Nodup ∧ ∀ r, r ∈ rs ↔ ∃ p ∈ paths, ∃ l, read (full p) = some l ∧ r ∈ l := by
  unfold getFiles at h
  rw [if_pos rfl] at h
  induction lines with
  | nil => cases h
  | cons l ls ih =>
    unfold askFiles at h
    split at h
    · next hall =>
      cases hr : readAll full there read ((Str.split [' '] l).map full) [] with
      | error e => rw [hr] at h; cases h
      | ok x =>
        rw [hr] at h
        cases h
        obtain ⟨h1, h2, h3⟩ := readAll_ok full there read _ [] rs List.nodup_nil hr
        refine ⟨[], Str.split [' '] l, by rw [Str.join_split _ _ (by simp)]; rfl, Str.split_ne_nil _ _, ?_, by simp, h1, ?_⟩
        · intro p hp
          refine ⟨Str.split_char_pieces ' ' l p hp, ?_⟩
          exact List.all_eq_true.1 hall (full p) (List.mem_map_of_mem hp)
        · intro r
          rw [h3]
          simp only [List.not_mem_nil, false_or, List.mem_map]
          constructor
          · rintro ⟨_, ⟨p, hp, rfl⟩, m, hm, hrm⟩
            rw [hfull] at hm
            exact ⟨p, hp, m, hm, hrm⟩
          · rintro ⟨p, hp, m, hm, hrm⟩
            exact ⟨full p, ⟨p, hp, rfl⟩, m, by rw [hfull]; exact hm, hrm⟩
    · next hall =>
      obtain ⟨junk, paths, h1, h2, h3, h4, h5⟩ := ih h
      refine ⟨l :: junk, paths, by rw [h1]; rfl, h2, h3, ?_, h5⟩
      intro y hy
      rcases List.mem_cons.1 hy with rfl | hy
      · rw [Bool.not_eq_true, List.all_eq_false] at hall
        obtain ⟨q, hq, hq'⟩ := hall
        obtain ⟨p, hp, rfl⟩ := List.mem_map.1 hq
        exact ⟨Str.split [' '] y, (Str.join_split _ _ (by simp)).symm, Str.split_char_pieces ' ' y, p, hp, by simpa using hq'⟩
      · exact h4 y hy

theorem readAll_total {ρ : Type} [DecidableEq ρ] (full : Str → Str) (there : Str → Bool) (read : Str → Option (List ρ)) (files : List Str) (acc : List ρ)
    (h : ∀ f ∈ files, there (full f) = true ∧ (read (full f)).isSome = true) : ∃ rs, readAll full there read files acc = .ok rs := by
  induction files generalizing acc with
  | nil => exact ⟨acc, rfl⟩
  | cons f fs ih =>
    obtain ⟨h1, h2⟩ := h f (by simp)
    obtain ⟨l, hl⟩ := Option.isSome_iff_exists.1 h2
    unfold readAll
    rw [if_pos h1, hl]
    exact ih _ (fun g hg => h g (by simp [hg]))

/-- And when all files exist and can be read there is a collection: with files on the command line, and with those of the first good line typed. -/
theorem C87_files_read {ρ : Type} [DecidableEq ρ] (full : Str → Str) (hfull : ∀ f, full (full f) = full f) (there : Str → Bool) (read : Str → Option (List ρ))
    (paths : List Str) (hne : paths ≠ []) (hp : ∀ p ∈ paths, there (full p) = true ∧ (read (full p)).isSome = true) (lines : List Str) :
    (∃ rs, getFiles full there read paths lines = .ok (rs, lines)) ∧
    ∀ junk, (∀ p ∈ paths, ' ' ∉ p) → (∀ l ∈ junk, ∃ paths, l = Str.join [' '] paths ∧ (∀ p ∈ paths, ' ' ∉ p) ∧ ∃ p ∈ paths, there (full p) = false) →
      ∃ rs, getFiles full there read [] (junk ++ Str.join [' '] paths :: lines) = .ok (rs, lines) := by
  constructor
  · unfold getFiles
    rw [if_neg hne]
    obtain ⟨rs, h⟩ := readAll_total full there read paths [] hp
    exact ⟨rs, by rw [h]; rfl⟩
  · intro junk hb hj
    unfold getFiles
    rw [if_pos rfl]
    induction junk with
    | nil =>
      rw [List.nil_append]
      unfold askFiles
      rw [Str.split_join_char ' ' _ hne hb, if_pos (by
        rw [List.all_eq_true]
        intro q hq
        obtain ⟨p, hp', rfl⟩ := List.mem_map.1 hq
        exact (hp p hp').1)]
      obtain ⟨rs, h⟩ := readAll_total full there read (paths.map full) [] (by
        intro q hq
        obtain ⟨p, hp', rfl⟩ := List.mem_map.1 hq
        rw [hfull]
        exact hp p hp')
      exact ⟨rs, by rw [h]; rfl⟩
    | cons l junk ih =>
      obtain ⟨ps, rfl, hps, q, hq, hq'⟩ := hj l (by simp)
      rw [List.cons_append]
      unfold askFiles
      rw [Str.split_join_char ' ' _ (List.ne_nil_of_mem hq) hps, if_neg (by
        rw [List.all_eq_true]
        intro h
        have := h (full q) (List.mem_map_of_mem hq)
        rw [hq'] at this
        cases this)]
      exact ih (fun l hl => hj l (by simp [hl]))

/-- But a path is whatever is between two blanks, also nothing, which is the working directory: a blank at the end of the line adds all its records to the collection. -/
theorem C87_trailing_blank {ρ : Type} [DecidableEq ρ] (full : Str → Str) (hfull : ∀ f, full (full f) = full f) (there : Str → Bool) (read : Str → Option (List ρ))
    (paths rest : List Str) (hne : paths ≠ []) (hp : ∀ p ∈ paths, ' ' ∉ p) (rs here : List ρ) (hh : read (full []) = some here)
    (h : getFiles full there read [] ((Str.join [' '] paths ++ [' ']) :: rest) = .ok (rs, rest)) : ∀ r ∈ here, r ∈ rs := by
  intro r hr
  obtain ⟨junk, ps, e, h1, h2, -, -, h3⟩ := C87_files_asked full hfull there read _ _ rs h
  cases junk with
  | cons a junk =>
    exfalso
    have := congrArg List.length e
    simp at this
    omega
  | nil =>
    rw [h3]
    refine ⟨[], ?_, here, hh, hr⟩
    have e2 : Str.join [' '] paths ++ [' '] = Str.join [' '] (paths ++ [[]]) := by
      clear h e h3 hh hr
      induction paths with
      | nil => exact absurd rfl hne
      | cons a l ih =>
        cases l with
        | nil => simp [Str.join]
        | cons b l =>
          have := ih (by simp) (fun p h => hp p (by simp [h]))
          simp only [Str.join, List.cons_append, List.append_assoc] at this ⊢
          rw [this]
    have e3 : Str.join [' '] (paths ++ [[]]) = Str.join [' '] ps := by rw [← e2]; exact (List.cons.inj e).1
    have e4 := congrArg (Str.split [' ']) e3
    rw [Str.split_join_char ' ' _ (by simp) (by
      intro p hp'
      rcases List.mem_append.1 hp' with h | h
      · exact hp p h
      · simp at h; subst h; simp), Str.split_join_char ' ' _ h1 (fun p hp' => (h2 p hp').1)] at e4
    rw [← e4]; simp

/-! ## Citations -/

/-- **C87**, the citations. The file has one line for each text of a citation of some record, of a journal if only journals are asked for, and no line twice. -/
theorem C87_citations {γ : Type} (text : γ → Str) (isJournal : γ → Bool) (journals : Bool) (records : List (List γ)) :
    (citationLines text isJournal journals records).Nodup ∧
    ∀ l, l ∈ citationLines text isJournal journals records ↔
      ∃ cs ∈ records, ∃ c ∈ cs, (journals = true → isJournal c = true) ∧ l = text c ++ "\n".toList := by
  refine ⟨List.nodup_dedup _, fun l => ?_⟩
  unfold citationLines
  rw [List.mem_dedup, List.mem_flatMap]
  refine exists_congr fun cs => and_congr_right fun _ => ?_
  rw [List.mem_map]
  cases journals
  · simp only [Bool.false_eq_true, if_false, false_implies, true_and]
    exact exists_congr fun c => and_congr_right fun _ => eq_comm
  · simp only [if_true, List.mem_filter, true_implies]
    refine exists_congr fun c => ?_
    rw [and_assoc]
    exact and_congr_right fun _ => and_congr_right fun _ => eq_comm

/-! ## Where the tool does not do what it says -/

/-- Leaving the console opened at a menu ends the tool with a `TypeError`, whichever the menu. -/
theorem C87_console (upper : Str → Str) (there clash : Str → Bool) (contour : Bool) (name manual : Str) (tags junk rest : List Str) (fuel : Nat)
    (hj : ∀ l ∈ junk, l ∉ (["0", "1", "2", "3", "4", "5", "6", "7", "q", "i"].map String.toList)) :
    getNetwork upper tags (junk ++ "i".toList :: rest) = .error .typeError ∧
    getWhatToDo upper there name manual (junk ++ "i".toList :: rest) = .error .typeError ∧
    outputNetwork upper there clash contour name (fuel + 1) (junk ++ "i".toList :: rest) = .error .typeError := by
  have H : ∀ keys : List Str, (∀ k ∈ keys, k ∈ (["0", "1", "2", "3", "4", "5", "6", "7"].map String.toList)) →
      menu keys (junk ++ ['i'] :: rest) = .error .typeError := by
    intro keys hk
    have hi : ∀ l, l ∉ (["0", "1", "2", "3", "4", "5", "6", "7"].map String.toList) → l ∉ keys := fun l hl h => hl (hk l h)
    induction junk with
    | nil =>
      show (if _ then _ else if _ then _ else if _ then _ else _) = _
      rw [if_neg (hi _ (by decide)), if_neg (by decide), if_pos rfl]
    | cons a junk ih =>
      have ha := hj a (by simp)
      have h1 : a ∉ keys := hi a (fun h => ha (by revert h; simp only [List.map_cons, List.map_nil, List.mem_cons, List.not_mem_nil, or_false]; tauto))
      have h2 : a ≠ ['q'] := fun h => ha (by subst h; decide)
      have h3 : a ≠ ['i'] := fun h => ha (by subst h; decide)
      rw [List.cons_append]
      unfold menu
      rw [if_neg h1, if_neg h2, if_neg h3]
      exact ih (fun l hl => hj l (by simp [hl]))
  refine ⟨?_, ?_, ?_⟩
  · unfold getNetwork
    show menu _ (junk ++ ['i'] :: rest) >>= _ = _
    rw [H _ (by decide)]; rfl
  · unfold getWhatToDo
    show menu _ (junk ++ ['i'] :: rest) >>= _ = _
    rw [H _ (by decide)]; rfl
  · unfold outputNetwork
    show menu _ (junk ++ ['i'] :: rest) >>= _ = _
    rw [H _ (by cases contour <;> decide)]; rfl

/-- A tag with a small letter, such as the names of the columns of Scopus, can not be chosen: what is typed is put in upper case first. When all tags are of that kind, none of the
networks by tag can be made. -/
theorem C87_small_letters (upper : Str → Str) (hup : ∀ l, upper (upper l) = upper l) (tags : List Str) (lines rest : List Str) :
    (∀ t, getNetwork upper tags lines = .ok (.oneMode t, rest) → upper t = t) ∧
    (∀ t u, getNetwork upper tags lines = .ok (.twoMode t u, rest) → upper t = t ∧ upper u = u) ∧
    (∀ ts, getNetwork upper tags lines = .ok (.multiMode ts, rest) → ∀ t ∈ ts, upper t = t) := by
  have hT : ∀ t a, Tagged upper tags t a → upper t = t := by
    rintro t a ⟨j, l, -, rfl, -⟩
    exact hup l
  have hM : ∀ ts a, MoreTagged upper tags ts a → ∀ t ∈ ts, upper t = t := by
    intro ts a h
    induction h with
    | stop => simp
    | skip _ _ _ _ _ _ ih => exact ih
    | tag t ts typed l h _ _ _ ih =>
      intro u hu
      rcases List.mem_cons.1 hu with rfl | hu
      · rw [← h, hup]
      · exact ih u hu
  refine ⟨?_, ?_, ?_⟩
  · intro t h
    obtain ⟨_, -, a, b, -, -, h⟩ := (C87_network upper tags lines rest _).1 h
    exact hT _ _ h
  · intro t u h
    obtain ⟨_, -, a, b, c, -, -, h1, h2⟩ := (C87_network upper tags lines rest _).1 h
    exact ⟨hT _ _ h1, hT _ _ h2⟩
  · intro ts h
    obtain ⟨_, -, t, us, a, b, c, rfl, -, -, h1, h2⟩ := (C87_network upper tags lines rest _).1 h
    intro u hu
    rcases List.mem_cons.1 hu with rfl | hu
    · exact hT _ _ h1
    · exact hM _ _ h2 u hu

/-! ## Dialogues -/

def up1 : Str → Str := fun l => l.map Char.toUpper
def tags1 : List Str := ["AF".toList, "DE".toList, "Authors".toList]

example : getNetwork up1 tags1 (["3", "authors", "af", "xx", "de", "", "0"].map String.toList) = .ok (.multiMode ["AF".toList, "DE".toList], ["0".toList]) := by rfl
example : getNetwork up1 tags1 (["9", "2", "AF", "Authors", "De"].map String.toList) = .ok (.twoMode "AF".toList "DE".toList, []) := by rfl
example : getWhatToDo up1 (fun s => s = "a.csv".toList) [] "db".toList (["6", "what", "n", "a", "n", "b"].map String.toList) =
    .ok ((.citations false "b.csv".toList, false), []) := by rfl
example : getWhatToDo up1 (fun _ => false) "x".toList "db".toList (["3", "1"].map String.toList) = .ok ((.writeFile "x.txt".toList, true), ["1".toList]) := by rfl
example : outputNetwork up1 (fun _ => false) (fun s => s = "g".toList) true [] 9 (["0", "1", "g", "n", "h"].map String.toList) = .ok (.both "h".toList false, []) := by rfl

def read1 : Str → Option (List Nat) := fun p => if p = "/w".toList then some [7, 8] else if p = "/w/a".toList then some [1, 2] else if p = "/w/b".toList then some [2, 3] else none
def full1 : Str → Str := fun p => if p.head? = some '/' then p else if p = [] then "/w".toList else "/w/".toList ++ p

example : getFiles full1 (fun p => (read1 p).isSome) read1 [] (["a c", "a b", "2"].map String.toList) = .ok ([1, 2, 3], ["2".toList]) := by rfl
example : getFiles full1 (fun p => (read1 p).isSome) read1 [] (["a "].map String.toList) = .ok ([1, 2, 7, 8], []) := by rfl
example : citationLines (fun c : Nat => if c = 1 then "a".toList else "b".toList) (fun c => c = 1) false [[1, 2], [2], [3]] = ["a\n".toList, "b\n".toList] := by decide +kernel

end Verif.Props.CliRun
