import Verif.Model.GetCitations
import Mathlib.Data.List.Perm.Basic
import Mathlib.Data.List.Nodup
import Mathlib.Algebra.Order.BigOperators.Group.List
import Mathlib.Algebra.BigOperators.Group.List.Basic
import Mathlib.Data.Rat.Lemmas
import Mathlib.Algebra.BigOperators.Ring.List
import Mathlib.Algebra.BigOperators.Ring.Finset
import Mathlib.Tactic.NormNum

/-! # C63: tables of citations -/
set_option autoImplicit false
set_option linter.unusedSectionVars false
set_option linter.unusedSimpArgs false
namespace Verif.Props.GetCitations
open Verif.Py Verif.Model.GetCitations

variable {γ K F V : Type} [DecidableEq K] [DecidableEq V]

/-! ## Specification -/

/-- A citation passes the filter: it has the attribute, if one is asked for, and its value is one of the given ones, if there are any. -/
def Passes (v : View γ K F V) (field : Option F) (values : Option (List V)) (c : γ) : Prop :=
  ∀ f, field = some f → ∃ x, v.attr c f = some x ∧ ∀ vs, values = some vs → x ∈ vs

instance (v : View γ K F V) (field : Option F) (values : Option (List V)) (c : γ) : Decidable (Passes v field values c) := by
  unfold Passes
  rcases field with _ | f
  · exact isTrue (by simp)
  · rcases h : v.attr c f with _ | x
    · exact isFalse (by simp [h])
    · rcases values with _ | vs
      · exact isTrue (by simp [h])
      · exact decidable_of_iff (x ∈ vs) (by simp [h])

/-- How often a citation is among the citations. -/
def times (v : View γ K F V) (cites : List γ) (c : γ) : Nat := cites.countP (fun x => v.key x = v.key c)

/-- How many of the citations have the year. -/
def ofYear (v : View γ K F V) (cites : List γ) (y : V) : Nat := cites.countP (fun x => v.attr x v.year = some y)

/-! ## Filtering -/

theorem ofRecord_eq (v : View γ K F V) (field : Option F) (values : Option (List V)) (cites : List γ) :
    ofRecord v field values cites = cites.filter (fun c => Passes v field values c) := by
  unfold ofRecord
  rcases field with _ | f
  · rw [eq_comm, List.filter_eq_self]; intro c _; simp [Passes]
  · dsimp only
    suffices h : ∀ acc : List γ, cites.foldl (keepStep v f values) acc = acc ++ cites.filter (fun c => Passes v (some f) values c) by
      simpa using h []
    induction cites with
    | nil => simp
    | cons c cites ih =>
      intro acc
      rw [List.foldl_cons, ih, List.filter_cons]
      unfold keepStep
      rcases h : v.attr c f with _ | x
      · have : ¬ Passes v (some f) values c := by simp [Passes, h]
        simp [this]
      · rcases values with _ | vs
        · have : Passes v (some f) none c := by simp [Passes, h]
          simp [this]
        · by_cases hx : x ∈ vs
          · have : Passes v (some f) (some vs) c := by simp [Passes, h, hx]
            simp [this, hx]
          · have : ¬ Passes v (some f) (some vs) c := by simp [Passes, h, hx]
            simp [this, hx]

/-- C63, filter: the citations considered are those of the records, record by record, that pass. -/
theorem C63_filter (v : View γ K F V) (field : Option F) (values : Option (List V)) (recs : List (List γ)) :
    ofRecords v field values recs = recs.flatten.filter (fun c => Passes v field values c) := by
  unfold ofRecords
  suffices h : ∀ acc : List γ, recs.foldl (fun ret R => ret ++ ofRecord v field values R) acc =
      acc ++ recs.flatten.filter (fun c => Passes v field values c) by simpa using h []
  induction recs with
  | nil => simp
  | cons R recs ih => intro acc; rw [List.foldl_cons, ih, ofRecord_eq]; simp

/-! ## The set of citations -/

theorem distinct_spec (v : View γ K F V) (cites : List γ) :
    ((distinct v cites).map v.key).Nodup ∧ (∀ k, k ∈ (distinct v cites).map v.key ↔ k ∈ cites.map v.key) ∧
    (∀ c ∈ distinct v cites, c ∈ cites) := by
  unfold distinct
  suffices h : ∀ acc : List γ, (acc.map v.key).Nodup →
      let r := cites.foldl (fun s c => if v.key c ∈ s.map v.key then s else s ++ [c]) acc
      (r.map v.key).Nodup ∧ (∀ k, k ∈ r.map v.key ↔ k ∈ acc.map v.key ∨ k ∈ cites.map v.key) ∧ ∀ c ∈ r, c ∈ acc ∨ c ∈ cites by
    have := h [] (by simp)
    simpa using this
  induction cites with
  | nil => intro acc h; simpa using h
  | cons c cites ih =>
    intro acc hacc
    simp only [List.foldl_cons]
    by_cases hc : v.key c ∈ acc.map v.key
    · rw [if_pos hc]
      obtain ⟨h1, h2, h3⟩ := ih acc hacc
      refine ⟨h1, fun k => ?_, fun x hx => ?_⟩
      · rw [h2, List.map_cons, List.mem_cons]
        constructor
        · rintro (h | h)
          · exact Or.inl h
          · exact Or.inr (Or.inr h)
        · rintro (h | rfl | h)
          · exact Or.inl h
          · exact Or.inl hc
          · exact Or.inr h
      · rcases h3 x hx with h | h
        · exact Or.inl h
        · exact Or.inr (by simp [h])
    · rw [if_neg hc]
      have hnd : ((acc ++ [c]).map v.key).Nodup := by
        rw [List.map_append, List.nodup_append]
        refine ⟨hacc, by simp, ?_⟩
        intro a ha b hb
        simp only [List.map_cons, List.map_nil, List.mem_singleton] at hb
        subst hb
        rintro rfl; exact hc ha
      obtain ⟨h1, h2, h3⟩ := ih (acc ++ [c]) hnd
      refine ⟨h1, fun k => ?_, fun x hx => ?_⟩
      · rw [h2, List.map_append, List.map_cons, List.mem_append, List.mem_cons]
        simp only [List.map_cons, List.map_nil, List.mem_cons, List.not_mem_nil, or_false]
        tauto
      · rcases h3 x hx with h | h
        · rcases List.mem_append.1 h with h | h
          · exact Or.inl h
          · simp only [List.mem_singleton] at h; exact Or.inr (by simp [h])
        · exact Or.inr (by simp [h])

/-- C63, rows: whatever the order of iteration, the set of the citations holds one citation of each ID that occurs, and no other. -/
theorem C63_distinct (v : View γ K F V) (cites order : List γ) (ho : order.Perm (distinct v cites)) :
    (∀ c ∈ order, c ∈ cites) ∧ (∀ c ∈ cites, order.countP (fun x => v.key x = v.key c) = 1) := by
  obtain ⟨h1, h2, h3⟩ := distinct_spec v cites
  refine ⟨fun c hc => h3 c (ho.mem_iff.1 hc), fun c hc => ?_⟩
  rw [ho.countP_eq]
  have hk : v.key c ∈ (distinct v cites).map v.key := (h2 _).2 (List.mem_map_of_mem hc)
  have := List.count_eq_one_of_mem h1 hk
  rw [← this, List.count, List.countP_map]
  apply List.countP_congr
  intro x _
  simp [Function.comp]

/-! ## Counts -/

theorem get?_bump {κ : Type} [DecidableEq κ] (d : Dict κ Nat) (a b : κ) :
    ((bump d a).get? b).getD 0 = (d.get? b).getD 0 + if a = b then 1 else 0 := by
  unfold bump
  cases h : d.get? a with
  | none =>
    simp only
    rw [Dict.get?_set]
    by_cases e : a = b
    · subst e; simp [h]
    · simp [e]
  | some n =>
    simp only
    rw [Dict.get?_set]
    by_cases e : a = b
    · subst e; simp [h]
    · simp [e]

theorem isSome_bump {κ : Type} [DecidableEq κ] (d : Dict κ Nat) (a b : κ) :
    ((bump d a).get? b).isSome = ((d.get? b).isSome || decide (a = b)) := by
  unfold bump
  cases h : d.get? a with
  | none =>
    simp only
    rw [Dict.get?_set]
    by_cases e : a = b
    · subst e; simp [h]
    · simp [e]
  | some n =>
    simp only
    rw [Dict.get?_set]
    by_cases e : a = b
    · subst e; simp [h]
    · simp [e]

theorem countsDict_spec (v : View γ K F V) (cites : List γ) :
    (∀ k, ((countsDict v cites).get? (.inl k)).getD 0 = cites.countP (fun x => v.key x = k) ∧
      (((countsDict v cites).get? (.inl k)).isSome ↔ ∃ x ∈ cites, v.key x = k)) ∧
    (∀ y, ((countsDict v cites).get? (.inr y)).getD 0 = ofYear v cites y ∧
      (((countsDict v cites).get? (.inr y)).isSome ↔ ∃ x ∈ cites, v.attr x v.year = some y)) := by
  unfold countsDict ofYear
  suffices h : ∀ acc : Dict (K ⊕ V) Nat,
      let r := cites.foldl (countStep v) acc
      (∀ k, (r.get? (.inl k)).getD 0 = (acc.get? (.inl k)).getD 0 + cites.countP (fun x => v.key x = k) ∧
        ((r.get? (.inl k)).isSome ↔ (acc.get? (.inl k)).isSome ∨ ∃ x ∈ cites, v.key x = k)) ∧
      (∀ y, (r.get? (.inr y)).getD 0 = (acc.get? (.inr y)).getD 0 + cites.countP (fun x => v.attr x v.year = some y) ∧
        ((r.get? (.inr y)).isSome ↔ (acc.get? (.inr y)).isSome ∨ ∃ x ∈ cites, v.attr x v.year = some y)) by
    have := h []
    simpa using this
  induction cites with
  | nil => intro acc; simp
  | cons c cites ih =>
    intro acc
    simp only [List.foldl_cons, countStep]
    cases hy : v.attr c v.year with
    | none =>
      obtain ⟨h1, h2⟩ := ih (bump acc (.inl (v.key c)))
      refine ⟨fun k => ⟨?_, ?_⟩, fun y => ⟨?_, ?_⟩⟩
      · rw [(h1 k).1, get?_bump, List.countP_cons]
        by_cases e : v.key c = k <;> simp [e] <;> omega
      · rw [(h1 k).2, isSome_bump]
        by_cases e : v.key c = k <;> simp [e]
      · rw [(h2 y).1, get?_bump, List.countP_cons]
        simp [hy]
      · rw [(h2 y).2, isSome_bump]
        simp [hy]
    | some z =>
      obtain ⟨h1, h2⟩ := ih (bump (bump acc (.inl (v.key c))) (.inr z))
      refine ⟨fun k => ⟨?_, ?_⟩, fun y => ⟨?_, ?_⟩⟩
      · rw [(h1 k).1, get?_bump, get?_bump, List.countP_cons]
        by_cases e : v.key c = k <;> simp [e] <;> omega
      · rw [(h1 k).2, isSome_bump, isSome_bump]
        by_cases e : v.key c = k <;> simp [e]
      · rw [(h2 y).1, get?_bump, get?_bump, List.countP_cons]
        by_cases e : z = y <;> simp [hy, e] <;> omega
      · rw [(h2 y).2, isSome_bump, isSome_bump]
        by_cases e : z = y <;> simp [hy, e]

theorem countCells_eq (v : View γ K F V) (cites : List γ) (c : γ) (hc : c ∈ cites) :
    countCells v (countsDict v cites) cites.length c =
      some (times v cites c, (times v cites c : Rat) / cites.length, (v.attr c v.year).map (fun y => (times v cites c : Rat) / ofYear v cites y)) := by
  obtain ⟨h1, h2⟩ := countsDict_spec v cites
  have hk := (h1 (v.key c)).2.2 ⟨c, hc, rfl⟩
  have hn := (h1 (v.key c)).1
  unfold countCells times
  cases hg : (countsDict v cites).get? (.inl (v.key c)) with
  | none => rw [hg] at hk; simp at hk
  | some n =>
    rw [hg] at hn; simp only [Option.getD_some] at hn; subst hn
    cases hy : v.attr c v.year with
    | none => rfl
    | some y =>
      have hyk := (h2 y).2.2 ⟨c, hc, hy⟩
      have hyn := (h2 y).1
      cases hgy : (countsDict v cites).get? (.inr y) with
      | none => rw [hgy] at hyk; simp at hyk
      | some m => rw [hgy] at hyn; simp only [Option.getD_some] at hyn; subst hyn; dsimp only; rw [hgy]; rfl

/-- C63, table: for every order in which the set of the citations is iterated the table has one row for each of them, with its text and
attributes and, if asked for, how often it occurs, that as a fraction of all citations, and as a fraction of the citations of its year. -/
theorem C63_table (v : View γ K F V) (addCounts : Bool) (cites order : List γ) (ho : order.Perm (distinct v cites)) :
    pandasPrep v addCounts cites order = some
      { citeString := order.map v.text
        year := order.map (fun c => v.attr c v.year)
        journal := order.map (fun c => v.attr c v.journal)
        author := order.map (fun c => v.attr c v.author)
        counts := if addCounts then some (order.map (times v cites), order.map (fun c => (times v cites c : Rat) / cites.length),
            order.map (fun c => (v.attr c v.year).map (fun y => (times v cites c : Rat) / ofYear v cites y)))
          else none } := by
  have hmem := (C63_distinct v cites order ho).1
  clear ho
  unfold pandasPrep
  suffices h : ∀ t : Table V, (t.counts.isSome = addCounts) → order.foldlM (addRow v (countsDict v cites) cites.length) t = some
      { citeString := t.citeString ++ order.map v.text
        year := t.year ++ order.map (fun c => v.attr c v.year)
        journal := t.journal ++ order.map (fun c => v.attr c v.journal)
        author := t.author ++ order.map (fun c => v.attr c v.author)
        counts := t.counts.map (fun p => (p.1 ++ order.map (times v cites),
          p.2.1 ++ order.map (fun c => (times v cites c : Rat) / cites.length),
          p.2.2 ++ order.map (fun c => (v.attr c v.year).map (fun y => (times v cites c : Rat) / ofYear v cites y)))) } by
    dsimp only
    rw [h _ (by cases addCounts <;> rfl)]
    cases addCounts <;> simp
  induction order with
  | nil => intro t _; rcases t with ⟨a, b, c, d, _ | ⟨x, y, z⟩⟩ <;> simp
  | cons c order ih =>
    intro t ht
    have hc := hmem c (by simp)
    have ih' := ih (fun c hc => hmem c (by simp [hc]))
    rw [List.foldlM_cons]
    rcases t with ⟨a, b, e, d, _ | ⟨x, y, z⟩⟩
    · simp only [addRow, Option.bind_eq_bind, Option.bind_some]
      rw [ih' _ (by simpa using ht)]
      simp
    · simp only [addRow, countCells_eq v cites c hc, Option.bind_eq_bind, Option.bind_some]
      rw [ih' _ (by simpa using ht)]
      simp

/-! ## Totals -/

theorem sum_countP_keys (key : γ → K) (ks : List K) (hnd : ks.Nodup) (cites : List γ) (hall : ∀ c ∈ cites, key c ∈ ks) :
    (ks.map (fun k => cites.countP (fun x => key x = k))).sum = cites.length := by
  induction cites with
  | nil => simp
  | cons c cites ih =>
    have h1 := ih (fun c hc => hall c (by simp [hc]))
    have h2 : (ks.map (fun k => (c :: cites).countP (fun x => key x = k))).sum =
        (ks.map (fun k => cites.countP (fun x => key x = k))).sum + ks.count (key c) := by
      clear h1 ih hall hnd
      induction ks with
      | nil => simp
      | cons k ks ih =>
        simp only [List.map_cons, List.sum_cons, List.countP_cons, List.count_cons] at ih ⊢
        by_cases e : key c = k
        · subst e; simp only [decide_true, if_true, beq_self_eq_true]; omega
        · have : (k == key c) = false := by simpa using fun h => e h.symm
          simp only [e, decide_false, Bool.false_eq_true, if_false, this]; omega
    rw [h2, h1, List.count_eq_one_of_mem hnd (hall c (by simp))]
    simp

/-- C63, totals: the counts add up to the number of citations, and the fractions, if there are citations, to one. -/
theorem C63_totals (v : View γ K F V) (cites order : List γ) (ho : order.Perm (distinct v cites)) :
    (order.map (times v cites)).sum = cites.length ∧
    (cites ≠ [] → (order.map (fun c => (times v cites c : Rat) / cites.length)).sum = 1) := by
  obtain ⟨h1, h2, h3⟩ := distinct_spec v cites
  have hs : (order.map (times v cites)).sum = cites.length := by
    rw [(ho.map (times v cites)).sum_eq]
    have : (distinct v cites).map (times v cites) = ((distinct v cites).map v.key).map (fun k => cites.countP (fun x => v.key x = k)) := by
      rw [List.map_map]; rfl
    rw [this]
    exact sum_countP_keys v.key _ h1 cites (fun c hc => (h2 _).2 (List.mem_map_of_mem hc))
  refine ⟨hs, fun hne => ?_⟩
  have hlen : (cites.length : Rat) ≠ 0 := by
    have : cites.length ≠ 0 := by simpa using hne
    exact_mod_cast this
  have : (order.map (fun c => (times v cites c : Rat) / cites.length)) = (order.map (fun c => (times v cites c : Rat))).map (· / (cites.length : Rat)) := by
    rw [List.map_map]; rfl
  rw [this, show (fun x : Rat => x / (cites.length : Rat)) = (fun x => x * (cites.length : Rat)⁻¹) from funext (fun x => div_eq_mul_inv _ _),
    List.sum_map_mul_right, List.map_id']
  have hcast : (order.map (fun c => (times v cites c : Rat))).sum = ((order.map (times v cites)).sum : Nat) := by
    rw [Nat.cast_list_sum, List.map_map]; rfl
  rw [hcast, hs]
  exact mul_inv_cancel₀ hlen

/-- C63, years: when the ID of a citation settles its year, the fractions of the citations of one year add up to one. -/
theorem C63_year_totals (v : View γ K F V) (cites order : List γ) (ho : order.Perm (distinct v cites))
    (hy : ∀ c ∈ cites, ∀ d ∈ cites, v.key c = v.key d → v.attr c v.year = v.attr d v.year) (y : V) (hne : ∃ c ∈ cites, v.attr c v.year = some y) :
    ((order.filter (fun c => v.attr c v.year = some y)).map (fun c => (times v cites c : Rat) / ofYear v cites y)).sum = 1 := by
  obtain ⟨h1, h2, h3⟩ := distinct_spec v cites
  have hpos : ofYear v cites y ≠ 0 := by
    unfold ofYear
    obtain ⟨c, hc, hcy⟩ := hne
    have : 0 < cites.countP (fun x => v.attr x v.year = some y) := List.countP_pos_iff.2 ⟨c, hc, by simpa using hcy⟩
    omega
  have hsum : ((order.filter (fun c => v.attr c v.year = some y)).map (times v cites)).sum = ofYear v cites y := by
    rw [((ho.filter _).map (times v cites)).sum_eq]
    have hmem : ∀ c ∈ (distinct v cites).filter (fun c => decide (v.attr c v.year = some y)), c ∈ cites ∧ v.attr c v.year = some y := by
      intro c hc
      rw [List.mem_filter] at hc
      exact ⟨h3 c hc.1, by simpa using hc.2⟩
    have ht : ∀ c ∈ (distinct v cites).filter (fun c => decide (v.attr c v.year = some y)),
        times v cites c = (cites.filter (fun x => decide (v.attr x v.year = some y))).countP (fun x => v.key x = v.key c) := by
      intro c hc
      obtain ⟨hc1, hc2⟩ := hmem c hc
      unfold times
      rw [List.countP_filter]
      apply List.countP_congr
      intro x hx
      simp only [decide_eq_true_eq, Bool.and_eq_true]
      constructor
      · intro hk; exact ⟨hk, by rw [hy x hx c hc1 hk, hc2]⟩
      · exact fun h => h.1
    rw [List.map_congr_left ht]
    have : ((distinct v cites).filter (fun c => decide (v.attr c v.year = some y))).map
        (fun c => (cites.filter (fun x => decide (v.attr x v.year = some y))).countP (fun x => v.key x = v.key c)) =
        (((distinct v cites).filter (fun c => decide (v.attr c v.year = some y))).map v.key).map
        (fun k => (cites.filter (fun x => decide (v.attr x v.year = some y))).countP (fun x => v.key x = k)) := by
      rw [List.map_map]; rfl
    rw [this, sum_countP_keys v.key _ (h1.sublist (List.filter_sublist.map _))]
    · unfold ofYear; rw [List.countP_eq_length_filter]
    · intro c hc
      rw [List.mem_filter] at hc
      obtain ⟨d, hd, hdk⟩ := List.mem_map.1 ((h2 _).2 (List.mem_map_of_mem (f := v.key) hc.1))
      refine List.mem_map.2 ⟨d, List.mem_filter.2 ⟨hd, ?_⟩, hdk⟩
      have := hy d (h3 d hd) c hc.1 hdk
      simpa [this] using hc.2
  have hr : (ofYear v cites y : Rat) ≠ 0 := by exact_mod_cast hpos
  generalize order.filter (fun c => decide (v.attr c v.year = some y)) = l at hsum
  have : (l.map (fun c => (times v cites c : Rat) / ofYear v cites y)) = l.map (fun c => (times v cites c : Rat) * ((ofYear v cites y : Rat))⁻¹) := by
    simp only [div_eq_mul_inv]
  rw [this, List.sum_map_mul_right]
  have hcast : (l.map (fun c => (times v cites c : Rat))).sum = ((l.map (times v cites)).sum : Nat) := by
    rw [Nat.cast_list_sum, List.map_map]; rfl
  rw [hcast, hsum]
  exact mul_inv_cancel₀ hr

/-! ## Example -/

private def v0 : View (Nat × Nat) Nat Nat Nat :=
  ⟨Prod.fst, fun c f => if f = 0 then (if c.1 = 9 then none else some (c.1 / 2)) else some f, fun _ => [], 0, 1, 2⟩

example : ofRecords v0 (some 0) (some [1, 2]) [[(2, 0), (9, 0), (6, 0)], [(3, 1), (2, 7)]] = [(2, 0), (3, 1), (2, 7)] := by decide +kernel
example : distinct v0 [(2, 0), (3, 1), (2, 7), (9, 0)] = [(2, 0), (3, 1), (9, 0)] := by decide +kernel
example : (pandasPrep v0 true [(2, 0), (3, 1), (2, 7), (9, 0)] [(9, 0), (3, 1), (2, 0)]).map (fun t => (t.year, t.counts)) =
    some ([none, some 1, some 1], some ([1, 1, 2], [1 / 4, 1 / 4, 1 / 2], [none, some (1 / 3), some (2 / 3)])) := by
  rw [C63_table v0 true _ _ (by decide +kernel)]; simp [times, ofYear, v0]; norm_num
example : ∀ c ∈ [(2, 0), (3, 1), (2, 7), (9, 0)], ∀ d ∈ [(2, 0), (3, 1), (2, 7), (9, 0)], v0.key c = v0.key d → v0.attr c v0.year = v0.attr d v0.year := by
  decide +kernel

end Verif.Props.GetCitations
