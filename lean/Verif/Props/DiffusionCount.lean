import Verif.Spec.Diffusion
import Mathlib.Algebra.BigOperators.Group.List.Basic
import Mathlib.Tactic.Ring

/-!
# C45: diffusionCount
-/
set_option autoImplicit false
set_option linter.unusedSimpArgs false
set_option linter.unusedSectionVars false
namespace Verif.Props.DiffusionCount
open Verif.Py Verif.Spec.Diffusion
open Verif.Model.Diffusion hiding targetCount

variable {γ : Type} [DecidableEq γ] {S : Type}

/-! ## Lemmas -/

theorem valueOf_eq (ty : NodeType) (r : Rec γ) :
    valueOf ty r = match nodeID ty r with
      | none => none
      | some k => if truthy r k then some k else none := by
  unfold valueOf nodeID
  cases ty with
  | raw =>
    have ht : truthy r (.record r.id) = true ↔ ¬ r.fields = [] := by simp [truthy]
    by_cases h : r.fields = []
    · simp only [if_pos h]; rw [if_neg (by rw [ht]; simpa using h)]
    · simp only [if_neg h]; rw [if_pos (ht.2 h)]
  | tag t =>
    simp only
    cases h : r.fields.get? t with
    | none => rfl
    | some v =>
      simp only [Option.map_some]
      rcases v with (s | n | c) | l
      · simp [Meaningful, truthy]
      · simp [Meaningful, truthy]
      · simp [Meaningful, truthy]
      · simp [Meaningful, truthy]

theorem get?_foldl_const (l : List γ) (k : Key γ) (d : Dict γ (Key γ)) (c : γ) :
    Dict.get? (l.foldl (fun d c => d.set c k) d) c = if c ∈ l then some k else d.get? c := by
  induction l generalizing d with
  | nil => simp
  | cons a l ih =>
    rw [List.foldl_cons, ih, Dict.get?_set]
    by_cases h1 : c ∈ l
    · simp [h1]
    · by_cases h2 : a = c
      · simp [h1, h2]
      · simp [h1, h2, Ne.symm h2]

theorem WF_foldl_const {κ ν : Type} [DecidableEq κ] (l : List κ) (k : ν) (d : Dict κ ν) (h : Dict.WF d) : Dict.WF (l.foldl (fun d c => d.set c k) d) := by
  induction l generalizing d with
  | nil => exact h
  | cons a l ih => exact ih _ (Dict.WF_set h _ _)

/-- One step of building `sourceDict`. -/
def sdStep (u : Bool) (ty : NodeType) (d : Dict γ (Key γ)) (r : Rec γ) : Dict γ (Key γ) :=
  match nodeID ty r with
  | none => d
  | some k => if truthy r k then (citesOf u r).foldl (fun d c => d.set c k) d else d

theorem sourceDict_eq (u : Bool) (ty : NodeType) (source : List (Rec γ)) : sourceDict u ty source = source.foldl (sdStep u ty) [] := rfl

theorem get?_sdStep (u : Bool) (ty : NodeType) (d : Dict γ (Key γ)) (r : Rec γ) (c : γ) :
    Dict.get? (sdStep u ty d r) c = (if c ∈ citations u r then valueOf ty r else none).or (d.get? c) := by
  unfold sdStep
  rw [valueOf_eq]
  cases nodeID ty r with
  | none => simp
  | some k =>
    simp only
    by_cases ht : truthy r k = true
    · simp only [ht, if_true]
      rw [get?_foldl_const]
      have : citesOf u r = citations u r := rfl
      rw [this]
      by_cases hc : c ∈ citations u r <;> simp [hc]
    · simp only [ht, if_false]
      by_cases hc : c ∈ citations u r <;> simp [hc]

theorem get?_sourceDict (u : Bool) (ty : NodeType) (source : List (Rec γ)) (c : γ) :
    Dict.get? (sourceDict u ty source) c = sourceFor u ty source c := by
  have : ∀ d : Dict γ (Key γ), Dict.get? (source.foldl (sdStep u ty) d) c = (sourceFor u ty source c).or (d.get? c) := by
    induction source with
    | nil => intro d; simp [sourceFor]
    | cons r rest ih =>
      intro d
      rw [List.foldl_cons, ih, get?_sdStep]
      unfold sourceFor
      rw [List.reverse_cons, List.findSome?_append]
      simp only [List.findSome?_cons, List.findSome?_nil]
      cases List.findSome? (fun r => if c ∈ citations u r then valueOf ty r else none) rest.reverse <;>
        cases (if c ∈ citations u r then valueOf ty r else none) <;> simp
  rw [sourceDict_eq, this]; simp

theorem WF_sourceDict (u : Bool) (ty : NodeType) (source : List (Rec γ)) : Dict.WF (sourceDict u ty source) := by
  have : ∀ d : Dict γ (Key γ), Dict.WF d → Dict.WF (source.foldl (sdStep u ty) d) := by
    induction source with
    | nil => intro d h; exact h
    | cons r rest ih =>
      intro d h
      refine ih _ ?_
      unfold sdStep
      split
      · exact h
      · split
        · exact WF_foldl_const _ _ _ h
        · exact h
  exact this [] Dict.WF_nil

/-- The values in `sourceDict` are those of sources. -/
theorem mem_values (u : Bool) (ty : NodeType) (source : List (Rec γ)) (k : Key γ) :
    k ∈ (sourceDict u ty source).map Prod.snd ↔ ∃ c, sourceFor u ty source c = some k := by
  constructor
  · intro h
    obtain ⟨⟨c, k'⟩, hm, rfl⟩ := List.mem_map.1 h
    exact ⟨c, by rw [← get?_sourceDict]; exact Dict.get?_of_mem (WF_sourceDict u ty source) hm⟩
  · rintro ⟨c, h⟩
    rw [← get?_sourceDict] at h
    exact List.mem_map.2 ⟨(c, k), Dict.mem_of_get? h, rfl⟩

theorem sourceFor_some {u : Bool} {ty : NodeType} {source : List (Rec γ)} {c : γ} {k : Key γ} (h : sourceFor u ty source c = some k) :
    ∃ r ∈ source, c ∈ citations u r ∧ valueOf ty r = some k := by
  unfold sourceFor at h
  obtain ⟨r, hr, h⟩ := List.exists_of_findSome?_eq_some h
  split at h
  · exact ⟨r, List.mem_reverse.1 hr, ‹_›, h⟩
  · cases h

theorem valueOf_tag {t : Str} {r : Rec γ} {k : Key γ} (h : valueOf (.tag t) r = some k) : ∃ v, r.fields.get? t = some v ∧ k = .val v := by
  unfold valueOf at h
  simp only at h
  cases hg : r.fields.get? t with
  | none => rw [hg] at h; cases h
  | some v =>
    rw [hg] at h
    simp only at h
    split at h
    · injection h with h; exact ⟨v, rfl, h.symm⟩
    · cases h

theorem listIds_eq (t : Str) (source : List (Rec γ)) (r : Rec γ) (hr : r ∈ source) (v : FVal γ) (hv : r.fields.get? t = some v) (hu : Uniform (.tag t) source) :
    (listIds (.tag t) source = true ∧ ∃ l, v = .list l) ∨ (listIds (.tag t) source = false ∧ ∃ a, v = .atom a) := by
  have hs : ∃ w, source.findSome? (fun r => r.fields.get? t) = some w := by
    cases hf : source.findSome? (fun r => r.fields.get? t) with
    | none => rw [List.findSome?_eq_none_iff] at hf; rw [hf r hr] at hv; cases hv
    | some w => exact ⟨w, rfl⟩
  obtain ⟨w, hw⟩ := hs
  obtain ⟨r', hr', hw'⟩ := List.exists_of_findSome?_eq_some hw
  unfold listIds
  simp only [hw]
  rcases hu with h | h
  · obtain ⟨l, rfl⟩ := h r' hr' w hw'
    exact Or.inl ⟨rfl, h r hr v hv⟩
  · obtain ⟨a, rfl⟩ := h r' hr' w hw'
    exact Or.inr ⟨rfl, h r hr v hv⟩

/-- With a uniform tag the ids of a source's value are its elements. -/
theorem idsOf_eq (u : Bool) (ty : NodeType) (source : List (Rec γ)) (hu : Uniform ty source) (c : γ) (k : Key γ) (h : sourceFor u ty source c = some k) :
    idsOf (listIds ty source) k = .ok (elements k) := by
  obtain ⟨r, hr, _, hv⟩ := sourceFor_some h
  cases ty with
  | raw =>
    unfold valueOf at hv
    simp only at hv
    split at hv
    · cases hv
    · injection hv with hv; subst hv; rfl
  | tag t =>
    obtain ⟨v, hg, rfl⟩ := valueOf_tag hv
    rcases listIds_eq t source r hr v hg hu with ⟨hl, l, rfl⟩ | ⟨hl, a, rfl⟩
    · rw [hl]; rfl
    · rw [hl]; rfl

theorem get?_foldl_init (ids : List (Key γ)) (init : S) (d : Dict (Key γ) S) (k : Key γ) :
    Dict.get? (ids.foldl (fun d i => d.set i init) d) k = if k ∈ ids then some init else d.get? k := by
  induction ids generalizing d with
  | nil => simp
  | cons a l ih =>
    rw [List.foldl_cons, ih, Dict.get?_set]
    by_cases h1 : k ∈ l
    · simp [h1]
    · by_cases h2 : a = k
      · simp [h1, h2]
      · simp [h1, h2, Ne.symm h2]

theorem initCounts_spec (lists : Bool) (init : S) (ks : List (Key γ)) (h : ∀ k ∈ ks, idsOf lists k = .ok (elements k)) (d : Dict (Key γ) S) :
    ∃ d', initCounts lists init ks d = .ok d' ∧ (∀ k, d'.get? k = if (∃ v ∈ ks, k ∈ elements v) then some init else d.get? k) ∧ (Dict.WF d → Dict.WF d') := by
  classical
  induction ks generalizing d with
  | nil => exact ⟨d, rfl, by simp, id⟩
  | cons a ks ih =>
    obtain ⟨d', h1, h2, h3⟩ := ih (fun k hk => h k (by simp [hk])) ((elements a).foldl (fun d i => d.set i init) d)
    refine ⟨d', ?_, fun k => ?_, fun hw => h3 (WF_foldl_const _ _ _ hw)⟩
    · rw [initCounts, h a (by simp)]; exact h1
    · rw [h2, get?_foldl_init]
      by_cases e1 : ∃ v ∈ ks, k ∈ elements v
      · rw [if_pos e1, if_pos]; obtain ⟨v, hv, hk⟩ := e1; exact ⟨v, by simp [hv], hk⟩
      · rw [if_neg e1]
        by_cases e2 : k ∈ elements a
        · rw [if_pos e2, if_pos ⟨a, by simp, e2⟩]
        · rw [if_neg e2, if_neg]
          rintro ⟨v, hv, hk⟩
          rcases List.mem_cons.1 hv with rfl | hv
          · exact e2 hk
          · exact e1 ⟨v, hv, hk⟩

/-- Applying `f` `n` times. -/
def times (f : S → S) : Nat → S → S
  | 0, x => x
  | n + 1, x => times f n (f x)

theorem times_add (f : S → S) (m n : Nat) (x : S) : times f (m + n) x = times f n (times f m x) := by
  induction m generalizing x with
  | zero => simp [times]
  | succ m ih => rw [Nat.succ_add, times, ih, times]

theorem bumps_spec (f : S → S) (ids : List (Key γ)) (d : Dict (Key γ) S) (h : ∀ k ∈ ids, (d.get? k).isSome = true) :
    ∃ d', bumps f ids d = .ok d' ∧ (∀ k, d'.get? k = (d.get? k).map (times f (ids.count k))) ∧ d'.keys = d.keys := by
  induction ids generalizing d with
  | nil => exact ⟨d, rfl, fun k => by simp [times], rfl⟩
  | cons a ids ih =>
    obtain ⟨n, hn⟩ := Option.isSome_iff_exists.1 (h a (by simp))
    have hk : ∀ k, Dict.get? (d.set a (f n)) k = if a = k then some (f n) else d.get? k := fun k => Dict.get?_set _ _ _ _
    obtain ⟨d', h1, h2, h3⟩ := ih (d.set a (f n)) (by
      intro k hk'
      rw [hk]
      split
      · rfl
      · exact h k (by simp [hk']))
    refine ⟨d', ?_, fun k => ?_, ?_⟩
    · rw [bumps, bump, hn]; exact h1
    · rw [h2, hk, List.count_cons]
      by_cases e : a = k
      · subst e
        rw [if_pos rfl, hn]
        simp [times_add, times, Nat.add_comm]
      · rw [if_neg e]
        have : (a == k) = false := by simpa using e
        simp [this]
    · rw [h3, Dict.keys_set, if_pos]
      rw [Dict.mem_keys_iff, hn]; rfl

/-- How often `k` is among the elements of the source a citation leads to. -/
def hit (sd : γ → Option (Key γ)) (k : Key γ) (c : γ) : Nat :=
  match sd c with
  | none => 0
  | some v => (elements v).count k

theorem citesLoop_spec (lists : Bool) (f : S → S) (sd : Dict γ (Key γ)) (cs : List γ) (d : Dict (Key γ) S)
    (h1 : ∀ c v, sd.get? c = some v → idsOf lists v = .ok (elements v)) (h2 : ∀ c v, sd.get? c = some v → ∀ k ∈ elements v, (d.get? k).isSome = true) :
    ∃ d', citesLoop lists f sd cs d = .ok d' ∧ (∀ k, d'.get? k = (d.get? k).map (times f (cs.map (hit sd.get? k)).sum)) ∧ d'.keys = d.keys := by
  induction cs generalizing d with
  | nil => exact ⟨d, rfl, fun k => by simp [times], rfl⟩
  | cons c cs ih =>
    rw [citesLoop]
    cases hc : sd.get? c with
    | none =>
      obtain ⟨d', e1, e2, e3⟩ := ih d h2
      refine ⟨d', e1, fun k => ?_, e3⟩
      rw [e2]; simp [hit, hc]
    | some v =>
      simp only [h1 c v hc]
      obtain ⟨d1, e1, e2, e3⟩ := bumps_spec f (elements v) d (h2 c v hc)
      simp only [e1]
      obtain ⟨d', g1, g2, g3⟩ := ih d1 (by
        intro c' v' hc' k hk
        rw [e2]; simpa using h2 c' v' hc' k hk)
      refine ⟨d', g1, fun k => ?_, g3.trans e3⟩
      rw [g2, e2]
      simp only [List.map_cons, List.sum_cons, hit, hc, Option.map_map]
      congr 1
      funext x
      simp only [Function.comp, times_add]

/-- The effect of all targets on one count. -/
def effect (f : Rec γ → S → S) (sd : γ → Option (Key γ)) (k : Key γ) (target : List (Rec γ)) (x : S) : S :=
  target.foldl (fun x t => times (f t) (t.cr.map (hit sd k)).sum x) x

theorem targetsLoop_spec (lists : Bool) (f : Rec γ → S → S) (sd : Dict γ (Key γ)) (ts : List (Rec γ)) (d : Dict (Key γ) S)
    (h1 : ∀ c v, sd.get? c = some v → idsOf lists v = .ok (elements v)) (h2 : ∀ c v, sd.get? c = some v → ∀ k ∈ elements v, (d.get? k).isSome = true) :
    ∃ d', targetsLoop lists f sd ts d = .ok d' ∧ (∀ k, d'.get? k = (d.get? k).map (effect f sd.get? k ts)) ∧ d'.keys = d.keys := by
  induction ts generalizing d with
  | nil =>
    refine ⟨d, rfl, fun k => ?_, rfl⟩
    cases d.get? k <;> rfl
  | cons t ts ih =>
    obtain ⟨d1, e1, e2, e3⟩ := citesLoop_spec lists (f t) sd t.cr d h1 h2
    obtain ⟨d', g1, g2, g3⟩ := ih d1 (by
      intro c' v' hc' k hk
      rw [e2]; simpa using h2 c' v' hc' k hk)
    refine ⟨d', ?_, fun k => ?_, g3.trans e3⟩
    · rw [targetsLoop, e1]; exact g1
    · rw [g2, e2, Option.map_map]; rfl

open Classical in
/-- The final dictionary of counts. -/
theorem countWith_spec (init : S) (f : Rec γ → S → S) (u : Bool) (ty : NodeType) (source target : List (Rec γ)) (hu : Uniform ty source) :
    ∃ d, countWith init f u ty source target = .ok d ∧ Dict.WF d ∧
      ∀ k, d.get? k = if Listed u ty source k then some (effect f (sourceFor u ty source) k target init) else none := by
  have hids : ∀ c v, Dict.get? (sourceDict u ty source) c = some v → idsOf (listIds ty source) v = .ok (elements v) := by
    intro c v h; rw [get?_sourceDict] at h; exact idsOf_eq u ty source hu c v h
  obtain ⟨d0, i1, i2, i3⟩ := initCounts_spec (listIds ty source) init ((sourceDict u ty source).map Prod.snd) (by
    intro k hk
    obtain ⟨c, hc⟩ := (mem_values u ty source k).1 hk
    exact idsOf_eq u ty source hu c k hc) []
  have hlisted : ∀ k, (∃ v ∈ (sourceDict u ty source).map Prod.snd, k ∈ elements v) ↔ Listed u ty source k := by
    intro k
    constructor
    · rintro ⟨v, hv, hk⟩
      obtain ⟨c, hc⟩ := (mem_values u ty source v).1 hv
      exact ⟨c, v, hc, hk⟩
    · rintro ⟨c, v, hc, hk⟩
      exact ⟨v, (mem_values u ty source v).2 ⟨c, hc⟩, hk⟩
  obtain ⟨d, g1, g2, g3⟩ := targetsLoop_spec (listIds ty source) f (sourceDict u ty source) target d0 hids (by
    intro c v hc k hk
    rw [i2, if_pos]; · rfl
    exact (hlisted k).2 ⟨c, v, by rw [← get?_sourceDict]; exact hc, hk⟩)
  refine ⟨d, ?_, ?_, fun k => ?_⟩
  · unfold countWith; simp only [i1]; exact g1
  · unfold Dict.WF; rw [g3]; exact i3 Dict.WF_nil
  · have hsd : (fun c => Dict.get? (sourceDict u ty source) c) = sourceFor u ty source := by
      funext c; exact get?_sourceDict u ty source c
    rw [g2, i2]
    by_cases h : Listed u ty source k
    · rw [if_pos ((hlisted k).2 h), if_pos h]
      simp only [Option.map_some]
      rw [show Dict.get? (sourceDict u ty source) = sourceFor u ty source from hsd]
    · rw [if_neg (fun hc => h ((hlisted k).1 hc)), if_neg h]; rfl

theorem times_succ (n x : Nat) : times (fun n => n + 1) n x = x + n := by
  induction n generalizing x with
  | zero => rfl
  | succ n ih => rw [times, ih]; omega

theorem effect_plain (sd : γ → Option (Key γ)) (k : Key γ) (ts : List (Rec γ)) (x : Nat) :
    effect (fun _ n => n + 1) sd k ts x = x + (ts.map (fun t => (t.cr.map (hit sd k)).sum)).sum := by
  induction ts generalizing x with
  | nil => simp [effect]
  | cons t ts ih =>
    rw [effect, List.foldl_cons, ← effect, ih, times_succ]
    simp only [List.map_cons, List.sum_cons]; omega

theorem hits_eq (u : Bool) (ty : NodeType) (source target : List (Rec γ)) (k : Key γ) :
    hits u ty source target k = (target.map (fun t => (t.cr.map (hit (sourceFor u ty source) k)).sum)).sum := rfl

theorem sum_zero_iff (l : List Nat) : l.sum = 0 ↔ ∀ x ∈ l, x = 0 := by
  induction l with
  | nil => simp
  | cons a l ih => rw [List.sum_cons, Nat.add_eq_zero_iff, ih]; simp

/-! ## C45 -/

open Classical in
/-- **C45**. `diffusionCount` never fails on collections where the tag holds lists in all sources or in none. Its keys are the values of the sources that citations lead to, and
each value is counted as often as a target citation leads to a source with it. -/
theorem C45_count (u : Bool) (ty : NodeType) (source target : List (Rec γ)) (hu : Uniform ty source) :
    ∃ d, diffusionCount u ty source target = .ok d ∧ Dict.WF d ∧
      ∀ k, d.get? k = if Listed u ty source k then some (hits u ty source target k) else none := by
  obtain ⟨d, h1, h2, h3⟩ := countWith_spec 0 (fun _ n => n + 1) u ty source target hu
  refine ⟨d, h1, h2, fun k => ?_⟩
  rw [h3, effect_plain, hits_eq]; simp

theorem sum_count_keys {κ : Type} [DecidableEq κ] (ks l : List κ) (hn : ks.Nodup) (h : ∀ x ∈ l, x ∈ ks) : (ks.map (fun k => l.count k)).sum = l.length := by
  induction l with
  | nil => simp
  | cons a l ih =>
    have ha := h a (by simp)
    have : (ks.map (fun k => (a :: l).count k)).sum = (ks.map (fun k => l.count k)).sum + (ks.map (fun k => if a = k then 1 else 0)).sum := by
      rw [← List.sum_map_add]
      congr 1
      apply List.map_congr_left
      intro k _
      rw [List.count_cons]
      by_cases e : a = k <;> simp [e]
    rw [this, ih (fun x hx => h x (by simp [hx]))]
    have h1 : (ks.map (fun k => if a = k then 1 else 0)).sum = ks.count a := by
      clear this ih h ha hn
      induction ks with
      | nil => rfl
      | cons b ks ih =>
        rw [List.map_cons, List.sum_cons, ih, List.count_cons]
        by_cases e : a = b
        · subst e; simp [Nat.add_comm]
        · have : (b == a) = false := by simpa using Ne.symm e
          simp [e, this]
    rw [h1, List.count_eq_one_of_mem hn ha]; simp

theorem sum_swap {α β : Type} (as : List α) (bs : List β) (f : α → β → Nat) :
    (as.map (fun a => (bs.map (fun b => f a b)).sum)).sum = (bs.map (fun b => (as.map (fun a => f a b)).sum)).sum := by
  induction as with
  | nil => simp
  | cons a as ih => simp only [List.map_cons, List.sum_cons, ih, ← List.sum_map_add]

/-- **C45**, the total. The counts add up to the number of target citations that lead to a source, each as often as that source has values. -/
theorem C45_total (u : Bool) (ty : NodeType) (source target : List (Rec γ)) (hu : Uniform ty source) (d : Dict (Key γ) Nat)
    (hd : diffusionCount u ty source target = .ok d) :
    (d.map Prod.snd).sum = (target.map (fun t => (t.cr.map (fun c => match sourceFor u ty source c with
      | none => 0
      | some v => (elements v).length)).sum)).sum := by
  obtain ⟨d', h1, h2, h3⟩ := C45_count u ty source target hu
  rw [hd] at h1
  injection h1 with h1
  subst h1
  have e1 : d.map Prod.snd = d.keys.map (fun k => hits u ty source target k) := by
    unfold Dict.keys
    rw [List.map_map]
    apply List.map_congr_left
    rintro ⟨k, n⟩ hm
    have := Dict.get?_of_mem h2 hm
    rw [h3] at this
    split at this
    · injection this with this; exact this.symm
    · cases this
  have hkeys : ∀ k, Listed u ty source k → k ∈ d.keys := by
    intro k hk
    rw [Dict.mem_keys_iff, h3, if_pos hk]; rfl
  rw [e1]
  simp only [hits_eq]
  rw [sum_swap]
  congr 1
  apply List.map_congr_left
  intro t _
  rw [sum_swap]
  congr 1
  apply List.map_congr_left
  intro c _
  unfold hit
  cases hs : sourceFor u ty source c with
  | none => simp
  | some v =>
    simp only
    exact sum_count_keys d.keys (elements v) h2 (fun x hx => hkeys x ⟨c, v, hs, hx⟩)

/-- **C45**, single values (records, or a tag without lists): the counts add up to the number of target citations that lead to a source. -/
theorem C45_total_single (u : Bool) (ty : NodeType) (source target : List (Rec γ)) (hu : Uniform ty source)
    (hs : ∀ r ∈ source, ∀ v, valueOf ty r = some v → elements v = [v]) (d : Dict (Key γ) Nat) (hd : diffusionCount u ty source target = .ok d) :
    (d.map Prod.snd).sum = (target.map (fun t => t.cr.countP (fun c => (sourceFor u ty source c).isSome))).sum := by
  rw [C45_total u ty source target hu d hd]
  congr 1
  apply List.map_congr_left
  intro t _
  induction t.cr with
  | nil => rfl
  | cons c cs ih =>
    rw [List.map_cons, List.sum_cons, ih, List.countP_cons]
    cases hc : sourceFor u ty source c with
    | none => simp
    | some v =>
      obtain ⟨r, hr, _, hv⟩ := sourceFor_some hc
      simp [hs r hr v hv, Nat.add_comm]

/-- **C45** as stated, when no two sources share a citation: a value is counted as often as there are pairs of a target citation and a source record with that citation and
that value. -/
theorem C45_pairs_partial (u : Bool) (ty : NodeType) (source target : List (Rec γ)) (hu : Uniform ty source) (hn : NoShared u ty source) (d : Dict (Key γ) Nat)
    (hd : diffusionCount u ty source target = .ok d) (k : Key γ) :
    (d.get? k).getD 0 = pairsFor u ty source target k := by
  obtain ⟨d', h1, h2, h3⟩ := C45_count u ty source target hu
  rw [hd] at h1
  injection h1 with h1
  subst h1
  have key : ∀ c, hit (sourceFor u ty source) k c = (source.map (fun s =>
      if c ∈ citations u s then
        match valueOf ty s with
        | none => 0
        | some v => (elements v).count k
      else 0)).sum := by
    intro c
    have haux : ∀ src : List (Rec γ), NoShared u ty src → hit (sourceFor u ty src) k c = (src.map (fun s =>
        if c ∈ citations u s then
          match valueOf ty s with
          | none => 0
          | some v => (elements v).count k
        else 0)).sum := by
      intro src hn
      induction src with
      | nil => rfl
      | cons r src ih =>
        unfold NoShared at hn
        rw [List.pairwise_cons] at hn
        have ih := ih hn.2
        rw [List.map_cons, List.sum_cons, ← ih]
        have hsf : sourceFor u ty (r :: src) c = (sourceFor u ty src c).or (if c ∈ citations u r then valueOf ty r else none) := by
          unfold sourceFor
          rw [List.reverse_cons, List.findSome?_append]
          simp only [List.findSome?_cons, List.findSome?_nil]
          cases (if c ∈ citations u r then valueOf ty r else none) <;> rfl
        by_cases hc : c ∈ citations u r
        · cases hv : valueOf ty r with
          | none => unfold hit; rw [hsf]; simp [hv]
          | some v =>
            have : sourceFor u ty src c = none := by
              cases hs : sourceFor u ty src c with
              | none => rfl
              | some w =>
                obtain ⟨r', hr', hc', hv'⟩ := sourceFor_some hs
                exact absurd hc' (hn.1 r' hr' (by rw [hv]; simp) (by rw [hv']; simp) c hc)
            unfold hit; rw [hsf, this]; simp [hc, hv]
        · unfold hit; rw [hsf]; simp [hc]
    exact haux source hn
  have hp : pairsFor u ty source target k = hits u ty source target k := by
    rw [hits_eq]
    unfold pairsFor
    congr 1
    apply List.map_congr_left
    intro t _
    congr 1
    apply List.map_congr_left
    intro c _
    exact (key c).symm
  rw [hp, h3]
  by_cases hl : Listed u ty source k
  · rw [if_pos hl]; rfl
  · rw [if_neg hl, hits_eq]
    symm
    simp only [Option.getD_none]
    rw [sum_zero_iff]
    intro x hx
    obtain ⟨t, _, rfl⟩ := List.mem_map.1 hx
    rw [sum_zero_iff]
    intro y hy
    obtain ⟨c, _, rfl⟩ := List.mem_map.1 hy
    unfold hit
    cases hs : sourceFor u ty source c with
    | none => rfl
    | some v => exact List.count_eq_zero.2 (fun hm => hl ⟨c, v, hs, hm⟩)

theorem cnt_times (vals : List (Atom γ)) (n : Nat) (m : Dict (Atom γ) Nat) (x : Atom γ) :
    (times (fun m => vals.foldl Dict.incr (m.incr targetCount)) n m).cnt x = m.cnt x + n * vals.count x + if targetCount = x then n else 0 := by
  induction n generalizing m with
  | zero => simp [times]
  | succ n ih =>
    rw [times, ih, Dict.cnt_foldl_incr, Dict.cnt_incr]
    split <;> ring

theorem cnt_effect (mapping : Atom γ → Atom γ) (extra : Str) (sd : γ → Option (Key γ)) (k : Key γ) (ts : List (Rec γ)) (m : Dict (Atom γ) Nat) (x : Atom γ) :
    (effect (fun r m => (extraVals mapping extra r).foldl Dict.incr (m.incr targetCount)) sd k ts m).cnt x =
      m.cnt x + (ts.map (fun t => (t.cr.map (hit sd k)).sum * (extraVals mapping extra t).count x)).sum +
        if targetCount = x then (ts.map (fun t => (t.cr.map (hit sd k)).sum)).sum else 0 := by
  induction ts generalizing m with
  | nil => simp [effect]
  | cons t ts ih =>
    rw [effect, List.foldl_cons, ← effect, ih, cnt_times]
    simp only [List.map_cons, List.sum_cons]
    split <;> ring

open Classical in
/-- **C45**, `extraValue`. `TargetCount` is the count of the value as before (plus how often a field holds the word `TargetCount`), and each value of the targets' field is counted as
often as it comes together with the source's value. -/
theorem C45_extra (mapping : Atom γ → Atom γ) (extra : Str) (u : Bool) (ty : NodeType) (source target : List (Rec γ)) (hu : Uniform ty source) :
    ∃ d, diffusionCountExtra mapping extra u ty source target = .ok d ∧ Dict.WF d ∧
      ∀ k, (Listed u ty source k → ∃ m, d.get? k = some m ∧
          (∀ x, x ≠ targetCount → m.cnt x = jointHits mapping extra u ty source target k x) ∧
          m.cnt targetCount = hits u ty source target k + jointHits mapping extra u ty source target k targetCount) ∧
        (¬ Listed u ty source k → d.get? k = none) := by
  obtain ⟨d, h1, h2, h3⟩ := countWith_spec (S := Dict (Atom γ) Nat) [(targetCount, 0)] (fun r m => (extraVals mapping extra r).foldl Dict.incr (Dict.incr m targetCount)) u ty source target hu
  have hj : ∀ k x, jointHits mapping extra u ty source target k x =
      (target.map (fun t => (t.cr.map (hit (sourceFor u ty source) k)).sum * (extraVals mapping extra t).count x)).sum := by
    intro k x
    unfold jointHits
    congr 1
    apply List.map_congr_left
    intro t _
    unfold extraVals
    cases t.fields.get? extra with
    | none => rfl
    | some v => cases v <;> rfl
  refine ⟨d, h1, h2, fun k => ⟨fun hl => ?_, fun hl => by rw [h3, if_neg hl]⟩⟩
  refine ⟨_, by rw [h3, if_pos hl], fun x hx => ?_, ?_⟩
  · rw [cnt_effect, hj, if_neg (Ne.symm hx)]
    simp [Dict.cnt, Dict.get?, Ne.symm hx]
  · rw [cnt_effect, hj, hits_eq, if_pos rfl]
    simp [Dict.cnt, Dict.get?, Nat.add_comm]

theorem get?_map_none {κ : Type} [DecidableEq κ] (d : Dict κ S) (k : κ) :
    Dict.get? (d.map (fun kn => (kn.1, (kn.2, (none : Option S))))) k = (d.get? k).map (fun n => (n, none)) := by
  induction d with
  | nil => rfl
  | cons kv d ih =>
    simp only [List.map_cons, Dict.get?]
    split
    · rfl
    · exact ih

theorem pairUp_spec (loc : Dict (Key γ) S) (hw : Dict.WF loc) (main : Dict (Key γ) (S × Option S)) (h : ∀ k ∈ loc.keys, (main.get? k).isSome = true) :
    ∃ d, pairUp loc main = .ok d ∧ ∀ k, d.get? k = match loc.get? k with
      | none => main.get? k
      | some n => (main.get? k).map (fun m => (m.1, some n)) := by
  induction loc generalizing main with
  | nil => exact ⟨main, rfl, fun k => rfl⟩
  | cons kv rest ih =>
    obtain ⟨a, n⟩ := kv
    unfold Dict.WF Dict.keys at hw
    simp only [List.map_cons, List.nodup_cons] at hw
    obtain ⟨m, hm⟩ := Option.isSome_iff_exists.1 (h a (by simp [Dict.keys]))
    obtain ⟨d, h1, h2⟩ := ih hw.2 (main.set a (m.1, some n)) (by
      intro k hk
      rw [Dict.get?_set]
      split
      · rfl
      · exact h k (by unfold Dict.keys at hk ⊢; simp only [List.map_cons, List.mem_cons]; exact Or.inr hk))
    refine ⟨d, ?_, fun k => ?_⟩
    · rw [pairUp, hm]; exact h1
    · rw [h2, Dict.get?_set, Dict.get?]
      by_cases e : a = k
      · subst e
        have : Dict.get? rest a = none := (Dict.get?_eq_none_iff _ _).2 hw.1
        simp [this, hm]
      · simp [e]

open Classical in
/-- **C45**, `compareCounts`, when all authors are used (the default): each value comes with its count in the targets and its count in the sources themselves. -/
theorem C45_compare (ty : NodeType) (source target : List (Rec γ)) (hu : Uniform ty source) :
    ∃ d, diffusionCompare true ty source target = .ok d ∧
      ∀ k, d.get? k = if Listed true ty source k then some (hits true ty source target k, some (hits true ty source source k)) else none := by
  obtain ⟨d1, a1, a2, a3⟩ := C45_count true ty source target hu
  obtain ⟨d2, b1, b2, b3⟩ := C45_count true ty source source hu
  obtain ⟨d, c1, c2⟩ := pairUp_spec d2 b2 (d1.map (fun kn => (kn.1, (kn.2, (none : Option Nat))))) (by
    intro k hk
    rw [Dict.mem_keys_iff, b3] at hk
    rw [get?_map_none, a3]
    split at hk
    · rename_i h; rw [if_pos h]; rfl
    · cases hk)
  refine ⟨d, ?_, fun k => ?_⟩
  · unfold diffusionCompare; simp only [a1, b1]; exact c1
  · rw [c2, b3, get?_map_none, a3]
    by_cases h : Listed true ty source k
    · simp [h]
    · simp [h]

/-! ## Where the code disagrees -/

/-- A record for the examples: citations are numbers. -/
def mkRec (id : String) (fields : Dict Str (FVal Nat)) (cites cr : List Nat) : Rec Nat := ⟨id.toList, fields, cites.headD 0, cites, cr⟩

/-- Two papers with the same citation, cited once: only the later one is counted, the other is not even listed. -/
theorem C45_shared_citation :
    let a := mkRec "a" [("TI".toList, .atom (.str "A".toList))] [1] []
    let b := mkRec "b" [("TI".toList, .atom (.str "B".toList))] [1] []
    let t := mkRec "t" [("TI".toList, .atom (.str "T".toList))] [9] [1]
    diffusionCount true .raw [a, b] [t] = .ok [(.record "b".toList, 1)] ∧ diffusionCount true .raw [b, a] [t] = .ok [(.record "a".toList, 1)] ∧
      pairsFor true .raw [a, b] [t] (.record "a".toList) = 1 := by decide +kernel

/-- `compareCounts` without all authors raises `KeyError` when two papers share the first author's citation and one of them has another author. -/
theorem C45_compare_error :
    let a := mkRec "a" [("TI".toList, .atom (.str "A".toList))] [1, 2] []
    let b := mkRec "b" [("TI".toList, .atom (.str "B".toList))] [1] []
    diffusionCompare false .raw [a, b] [] = .error .keyError := by decide +kernel

/-! ## The hypotheses can be met -/

/-- Two sources with lists of subjects and two targets citing them. -/
def exA : Rec Nat := mkRec "a" [("WC".toList, .list [.str "X".toList, .str "Y".toList]), ("PY".toList, .atom (.num 2001))] [1, 2] []
def exB : Rec Nat := mkRec "b" [("WC".toList, .list [.str "Y".toList])] [3] [1]
def exT : Rec Nat := mkRec "t" [("WC".toList, .list [.str "Z".toList]), ("PY".toList, .atom (.num 2010))] [7] [1, 2, 3, 8]

example : Uniform (.tag "WC".toList) [exA, exB] ∧ NoShared true (.tag "WC".toList) [exA, exB] := by
  refine ⟨Or.inl ?_, ?_⟩
  · intro r hr v hv
    simp only [List.mem_cons, List.not_mem_nil, or_false] at hr
    rcases hr with rfl | rfl
    · have : exA.fields.get? "WC".toList = some (.list [.str "X".toList, .str "Y".toList]) := by decide +kernel
      rw [this] at hv; injection hv with hv; exact ⟨_, hv.symm⟩
    · have : exB.fields.get? "WC".toList = some (.list [.str "Y".toList]) := by decide +kernel
      rw [this] at hv; injection hv with hv; exact ⟨_, hv.symm⟩
  · unfold NoShared
    rw [List.pairwise_cons]
    refine ⟨fun b hb _ _ => ?_, List.pairwise_singleton _ _⟩
    simp only [List.mem_cons, List.not_mem_nil, or_false] at hb
    subst hb
    decide +kernel
example : diffusionCount true (.tag "WC".toList) [exA, exB] [exT] =
    .ok [(.val (.atom (.str "X".toList)), 2), (.val (.atom (.str "Y".toList)), 3)] := by decide +kernel
example : diffusionCompare true (.tag "WC".toList) [exA, exB] [exT] =
    .ok [(.val (.atom (.str "X".toList)), (2, some 1)), (.val (.atom (.str "Y".toList)), (3, some 1))] := by decide +kernel
example : diffusionCountExtra id "PY".toList true .raw [exA, exB] [exT, exB] =
    .ok [(.record "a".toList, [(targetCount, 3), (.num 2010, 2)]), (.record "b".toList, [(targetCount, 1), (.num 2010, 1)])] := by decide +kernel

end Verif.Props.DiffusionCount
