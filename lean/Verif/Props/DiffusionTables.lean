import Verif.Model.DiffusionTables
import Verif.Props.DiffusionCount
import Mathlib.Data.List.Forall2

/-! # C74: the tables of `diffusionCount` and the counts added to a graph -/
set_option autoImplicit false
set_option linter.unusedSimpArgs false
set_option linter.unusedSectionVars false
namespace Verif.Props.DiffusionTables
open Verif.Py Verif.Model.DiffusionTables Verif.Spec.Diffusion
open Verif.Model.Diffusion hiding targetCount

section
variable {γ : Type} [DecidableEq γ]

/-! ## Specification -/

/-- The names of the columns of counts. -/
def targetCol : Str := "TargetCount".toList
def sourceCol : Str := "SourceCount".toList
def authorsCol : Str := "numAuthors".toList

/-- A column: its name and what it shows of a row. -/
abbrev Col (γ : Type) := Str × (Row γ → Cell γ)

/-- The columns of the table of records. -/
def columns (authors : Rec γ → Option Nat) (numAuthors compare : Bool) (extra : Option Str) (tags : List Str) : List (Col γ) :=
  (extra.toList.map (fun e => (e, fun (r : Row γ) => Cell.atom (r.label.getD targetCount)))) ++
  (if numAuthors then [(authorsCol, fun (r : Row γ) => Cell.num ((authors r.record).getD 0))] else []) ++
  tags.map (fun t => (t, fun (r : Row γ) => Cell.val (r.record.fields.get? t))) ++
  [(targetCol, fun (r : Row γ) => Cell.num r.count)] ++
  (if compare then [(sourceCol, fun (r : Row γ) => Cell.num (r.loc.getD 0))] else [])

/-- The table with these columns and rows: every column shows its part of all rows, in order, and there is no other. -/
def Shows (cols : List (Col γ)) (rows : List (Row γ)) (t : Table γ) : Prop :=
  (∀ c ∈ cols, t.get? c.1 = some (rows.map c.2)) ∧ ∀ n, n ∈ t.keys → ∃ c ∈ cols, c.1 = n

/-! ## Helpers -/

theorem targetCol_eq : Verif.Model.DiffusionTables.targetCol = targetCol := rfl
theorem sourceCol_eq : Verif.Model.DiffusionTables.sourceCol = sourceCol := rfl
theorem authorsCol_eq : Verif.Model.DiffusionTables.authorsCol = authorsCol := rfl

theorem foldl_push (cs : List (Col γ)) (r : Row γ) (t : Table γ) (hc : (cs.map Prod.fst).Nodup) :
    (∀ c ∈ cs, (cs.foldl (fun t c => push t c.1 (c.2 r)) t).get? c.1 = some ((t.get? c.1).getD [] ++ [c.2 r])) ∧
    ∀ n, n ∉ cs.map Prod.fst → (cs.foldl (fun t c => push t c.1 (c.2 r)) t).get? n = t.get? n := by
  induction cs generalizing t with
  | nil => simp
  | cons c cs ih =>
    simp only [List.map_cons, List.nodup_cons] at hc
    obtain ⟨h1, h2⟩ := ih (push t c.1 (c.2 r)) hc.2
    constructor
    · intro x hx
      rw [List.foldl_cons]
      rcases List.mem_cons.1 hx with rfl | hx
      · rw [h2 _ hc.1, push, Dict.get?_set_self]
      · rw [h1 x hx, push, Dict.get?_set_ne _ _ (fun e => hc.1 (by rw [e]; exact List.mem_map_of_mem hx))]
    · intro n hn
      simp only [List.map_cons, List.mem_cons, not_or] at hn
      rw [List.foldl_cons, h2 n hn.2, push, Dict.get?_set_ne _ _ (Ne.symm hn.1)]

/-- The number of entries a row adds to a column. -/
theorem foldl_push_length (cs : List (Col γ)) (r : Row γ) (t : Table γ) (n : Str) :
    (((cs.foldl (fun t c => push t c.1 (c.2 r)) t).get? n).getD []).length = ((t.get? n).getD []).length + (cs.map Prod.fst).count n := by
  induction cs generalizing t with
  | nil => simp
  | cons c cs ih =>
    rw [List.foldl_cons, ih, push, Dict.get?_set, List.map_cons, List.count_cons]
    by_cases h : c.1 = n
    · simp [h]; omega
    · have : ¬ n = c.1 := fun e => h e.symm
      simp [h, this]

/-- A row that raises nothing. -/
def RowOk (authors : Rec γ → Option Nat) (numAuthors compare : Bool) (extra : Option Str) (r : Row γ) : Prop :=
  (numAuthors = true → authors r.record ≠ none) ∧ (compare = true → r.loc ≠ none) ∧ (extra ≠ none → r.label ≠ none)

theorem rawRow_eq (authors : Rec γ → Option Nat) (numAuthors compare : Bool) (extra : Option Str) (tags : List Str) (t : Table γ) (r : Row γ)
    (hr : RowOk authors numAuthors compare extra r) :
    rawRow authors numAuthors compare extra tags t r = .ok ((columns authors numAuthors compare extra tags).foldl (fun t c => push t c.1 (c.2 r)) t) := by
  obtain ⟨h1, h2, h3⟩ := hr
  unfold rawRow columns
  simp only [targetCol_eq, sourceCol_eq, authorsCol_eq]
  simp only [List.foldl_append, List.foldl_map]
  cases extra with
  | none =>
    cases numAuthors with
    | false =>
      cases compare with
      | false => rfl
      | true =>
        cases hl : r.loc with
        | none => exact absurd hl (h2 rfl)
        | some m => simp [hl]
    | true =>
      cases ha : authors r.record with
      | none => exact absurd ha (h1 rfl)
      | some k =>
        cases compare with
        | false => simp [ha]
        | true =>
          cases hl : r.loc with
          | none => exact absurd hl (h2 rfl)
          | some m => simp [ha, hl]
  | some e =>
    cases hlab : r.label with
    | none => exact absurd hlab (h3 (by simp))
    | some a =>
      cases numAuthors with
      | false =>
        cases compare with
        | false => simp [hlab]
        | true =>
          cases hl : r.loc with
          | none => exact absurd hl (h2 rfl)
          | some m => simp [hlab, hl]
      | true =>
        cases ha : authors r.record with
        | none => exact absurd ha (h1 rfl)
        | some k =>
          cases compare with
          | false => simp [ha, hlab]
          | true =>
            cases hl : r.loc with
            | none => exact absurd hl (h2 rfl)
            | some m => simp [ha, hl, hlab]

/-- All rows at once. -/
def pushAll (cs : List (Col γ)) (rows : List (Row γ)) (t : Table γ) : Table γ := rows.foldl (fun t r => cs.foldl (fun t c => push t c.1 (c.2 r)) t) t

theorem rawRows_eq (authors : Rec γ → Option Nat) (numAuthors compare : Bool) (extra : Option Str) (tags : List Str) (rows : List (Row γ)) (t : Table γ)
    (hr : ∀ r ∈ rows, RowOk authors numAuthors compare extra r) :
    rawRows authors numAuthors compare extra tags rows t = .ok (pushAll (columns authors numAuthors compare extra tags) rows t) := by
  induction rows generalizing t with
  | nil => rfl
  | cons r rows ih =>
    rw [rawRows, rawRow_eq _ _ _ _ _ _ _ (hr r (by simp))]
    exact ih _ fun x hx => hr x (List.mem_cons_of_mem _ hx)

theorem pushAll_spec (cs : List (Col γ)) (hc : (cs.map Prod.fst).Nodup) (rows : List (Row γ)) (t : Table γ) (ht : ∀ c ∈ cs, ∃ l, t.get? c.1 = some l) :
    (∀ c ∈ cs, (pushAll cs rows t).get? c.1 = some ((t.get? c.1).getD [] ++ rows.map c.2)) ∧
    ∀ n, n ∉ cs.map Prod.fst → (pushAll cs rows t).get? n = t.get? n := by
  induction rows generalizing t with
  | nil =>
    refine ⟨fun c h => ?_, fun n _ => rfl⟩
    obtain ⟨l, hl⟩ := ht c h
    show t.get? c.1 = _
    simp [hl]
  | cons r rows ih =>
    obtain ⟨h1, h2⟩ := foldl_push cs r t hc
    obtain ⟨h3, h4⟩ := ih (cs.foldl (fun t c => push t c.1 (c.2 r)) t) fun c h => ⟨_, h1 c h⟩
    constructor
    · intro c h
      show (pushAll cs rows (cs.foldl (fun t c => push t c.1 (c.2 r)) t)).get? c.1 = _
      rw [h3 c h, h1 c h]; simp
    · intro n hn
      show (pushAll cs rows (cs.foldl (fun t c => push t c.1 (c.2 r)) t)).get? n = _
      rw [h4 n hn, h2 n hn]

theorem pushAll_length (cs : List (Col γ)) (rows : List (Row γ)) (t : Table γ) (n : Str) :
    (((pushAll cs rows t).get? n).getD []).length = ((t.get? n).getD []).length + rows.length * (cs.map Prod.fst).count n := by
  induction rows generalizing t with
  | nil => simp [pushAll]
  | cons r rows ih =>
    show (((pushAll cs rows (cs.foldl (fun t c => push t c.1 (c.2 r)) t)).get? n).getD []).length = _
    rw [ih, foldl_push_length, List.length_cons, Nat.succ_mul]
    omega

theorem rawInit_get (numAuthors compare : Bool) (extra : Option Str) (tags : List Str) (n : Str) :
    (rawInit numAuthors compare extra tags : Table γ).get? n =
      if n = targetCol ∨ (numAuthors = true ∧ n = authorsCol) ∨ (compare = true ∧ n = sourceCol) ∨ extra = some n ∨ n ∈ tags then some [] else none := by
  have hf : ∀ (tags : List Str) (t : Table γ), (tags.foldl (fun t tag => t.set tag []) t).get? n = if n ∈ tags then some [] else t.get? n := by
    intro tags
    induction tags with
    | nil => intro t; simp
    | cons a tags ih =>
      intro t
      rw [List.foldl_cons, ih, Dict.get?_set]
      by_cases h1 : n ∈ tags
      · simp [h1]
      · by_cases h2 : n = a
        · simp [h1, h2]
        · rw [if_neg h1, if_neg (fun e => h2 e.symm), if_neg (by simp [h1, h2])]
  unfold rawInit
  simp only [targetCol_eq, sourceCol_eq, authorsCol_eq]
  rw [hf]
  by_cases ht : n ∈ tags
  · simp [ht]
  · rw [if_neg ht]
    cases extra with
    | none =>
      cases numAuthors <;> cases compare <;> simp [ht, Dict.get?_set, Dict.get?, eq_comm]
      all_goals (repeat' split) <;> simp_all
    | some e =>
      cases numAuthors <;> cases compare <;> simp [ht, Dict.get?_set, Dict.get?, eq_comm]
      all_goals (repeat' split) <;> simp_all

theorem columns_names (authors : Rec γ → Option Nat) (numAuthors compare : Bool) (extra : Option Str) (tags : List Str) (n : Str) :
    n ∈ (columns authors numAuthors compare extra tags).map Prod.fst ↔
      n = targetCol ∨ (numAuthors = true ∧ n = authorsCol) ∨ (compare = true ∧ n = sourceCol) ∨ extra = some n ∨ n ∈ tags := by
  have p1 : n ∈ (extra.toList.map (fun e => (e, fun (r : Row γ) => Cell.atom (r.label.getD targetCount)))).map Prod.fst ↔ extra = some n := by
    cases extra <;> simp [eq_comm]
  have p2 : n ∈ (if numAuthors then [((authorsCol, fun (r : Row γ) => Cell.num ((authors r.record).getD 0)) : Col γ)] else []).map Prod.fst ↔ numAuthors = true ∧ n = authorsCol := by
    cases numAuthors <;> simp
  have p3 : n ∈ (tags.map (fun t => (t, fun (r : Row γ) => Cell.val (r.record.fields.get? t)))).map Prod.fst ↔ n ∈ tags := by
    rw [List.map_map]
    show n ∈ tags.map (fun t => t) ↔ _
    rw [List.map_id']
  have p4 : n ∈ [((targetCol, fun (r : Row γ) => Cell.num r.count) : Col γ)].map Prod.fst ↔ n = targetCol := by simp
  have p5 : n ∈ (if compare then [((sourceCol, fun (r : Row γ) => Cell.num (r.loc.getD 0)) : Col γ)] else []).map Prod.fst ↔ compare = true ∧ n = sourceCol := by
    cases compare <;> simp
  unfold columns
  rw [List.map_append, List.mem_append, List.map_append, List.mem_append, List.map_append, List.mem_append, List.map_append, List.mem_append, p1, p2, p3, p4, p5]
  clear p1 p2 p3 p4 p5
  generalize (n = targetCol) = A
  generalize (numAuthors = true ∧ n = authorsCol) = B
  generalize (compare = true ∧ n = sourceCol) = C
  generalize (extra = some n) = D
  generalize (n ∈ tags) = E
  tauto

/-- No tag and no extra field has the name of one of the other columns. -/
def NoClash (extra : Option Str) (tags : List Str) : Prop :=
  (∀ t, t ∈ tags ∨ extra = some t → t ≠ targetCol ∧ t ≠ sourceCol ∧ t ≠ authorsCol) ∧ ∀ e, extra = some e → e ∉ tags

theorem columns_nodup (authors : Rec γ → Option Nat) (numAuthors compare : Bool) (extra : Option Str) (tags : List Str) (hn : tags.Nodup) (hc : NoClash extra tags) :
    ((columns authors numAuthors compare extra tags).map Prod.fst).Nodup := by
  have h1 : authorsCol ∉ tags := fun h => (hc.1 _ (Or.inl h)).2.2 rfl
  have h2 : targetCol ∉ tags := fun h => (hc.1 _ (Or.inl h)).1 rfl
  have h3 : sourceCol ∉ tags := fun h => (hc.1 _ (Or.inl h)).2.1 rfl
  have d1 : targetCol ≠ sourceCol := by decide
  have d2 : targetCol ≠ authorsCol := by decide
  have d3 : sourceCol ≠ authorsCol := by decide
  have hmap : (tags.map (fun t => (t, fun (r : Row γ) => Cell.val (r.record.fields.get? t)))).map Prod.fst = tags := by
    rw [List.map_map]; exact List.map_id' tags
  have happ : ∀ (a b : List Str), a.Nodup → b.Nodup → (∀ x ∈ a, x ∉ b) → (a ++ b).Nodup := by
    intro a b ha hb hab
    rw [List.nodup_append]
    exact ⟨ha, hb, fun x hx y hy e => hab x hx (e ▸ hy)⟩
  unfold columns
  simp only [List.map_append, hmap]
  refine happ _ _ (happ _ _ (happ _ _ (happ _ _ ?_ ?_ ?_) hn ?_) (by simp) ?_) ?_ ?_
  · cases extra <;> simp
  · cases numAuthors <;> simp
  · intro x hx
    have hxe : extra = some x := by cases extra <;> simp_all
    cases numAuthors
    · simp
    · simp; exact (hc.1 x (Or.inr hxe)).2.2
  · intro x hx
    rcases List.mem_append.1 hx with hx | hx
    · have hxe : extra = some x := by cases extra <;> simp_all
      exact hc.2 x hxe
    · cases numAuthors
      · simp at hx
      · simp at hx; rw [hx]; exact h1
  · intro x hx
    simp only [List.mem_append] at hx
    simp only [List.map_cons, List.map_nil, List.mem_singleton]
    rcases hx with (hx | hx) | hx
    · have hxe : extra = some x := by cases extra <;> simp_all
      exact (hc.1 x (Or.inr hxe)).1
    · cases numAuthors
      · simp at hx
      · simp at hx; rw [hx]; exact Ne.symm d2
    · intro e; rw [e] at hx; exact h2 hx
  · cases compare <;> simp
  · intro x hx
    cases compare
    · simp
    · simp only [List.mem_append] at hx
      simp only [if_true, List.map_cons, List.map_nil, List.mem_singleton]
      rcases hx with ((hx | hx) | hx) | hx
      · have hxe : extra = some x := by cases extra <;> simp_all
        exact (hc.1 x (Or.inr hxe)).2.1
      · cases numAuthors
        · simp at hx
        · simp at hx; rw [hx]; exact Ne.symm d3
      · intro e; rw [e] at hx; exact h3 hx
      · simp at hx; rw [hx]; exact d1

theorem rawRows_shows (authors : Rec γ → Option Nat) (numAuthors compare : Bool) (extra : Option Str) (tags : List Str) (hn : tags.Nodup) (hc : NoClash extra tags)
    (rows : List (Row γ)) (hr : ∀ r ∈ rows, RowOk authors numAuthors compare extra r) :
    ∃ t, rawRows authors numAuthors compare extra tags rows (rawInit numAuthors compare extra tags) = .ok t ∧
      Shows (columns authors numAuthors compare extra tags) rows t := by
  have hnd := columns_nodup authors numAuthors compare extra tags hn hc
  have hinit : ∀ c ∈ columns authors numAuthors compare extra tags, (rawInit numAuthors compare extra tags : Table γ).get? c.1 = some [] := by
    intro c h
    rw [rawInit_get, if_pos ((columns_names authors numAuthors compare extra tags c.1).1 (List.mem_map_of_mem h))]
  obtain ⟨h1, h2⟩ := pushAll_spec _ hnd rows (rawInit numAuthors compare extra tags) fun c h => ⟨_, hinit c h⟩
  refine ⟨_, rawRows_eq _ _ _ _ _ _ _ hr, ?_, ?_⟩
  · intro c h
    rw [h1 c h, hinit c h]; rfl
  · intro n hn'
    by_contra hne
    have hmem : n ∉ (columns authors numAuthors compare extra tags).map Prod.fst := by
      intro h
      obtain ⟨c, hc1, hc2⟩ := List.mem_map.1 h
      exact hne ⟨c, hc1, hc2⟩
    rw [Dict.mem_keys_iff, h2 n hmem, rawInit_get, if_neg (fun h => hmem ((columns_names authors numAuthors compare extra tags n).2 h))] at hn'
    cases hn'

/-! ## Records and their rows -/

theorem tagsOf_spec (recs : List (Rec γ)) (hw : ∀ r ∈ recs, Dict.WF r.fields) :
    (tagsOf recs).Nodup ∧ ∀ t, t ∈ tagsOf recs ↔ ∃ r ∈ recs, t ∈ r.fields.keys := by
  have : ∀ (recs : List (Rec γ)) (fs : List Str), (∀ r ∈ recs, Dict.WF r.fields) → fs.Nodup →
      (recs.foldl (fun fs r => fs ++ r.fields.keys.filter (fun t => t ∉ fs)) fs).Nodup ∧
      ∀ t, t ∈ recs.foldl (fun fs r => fs ++ r.fields.keys.filter (fun t => t ∉ fs)) fs ↔ t ∈ fs ∨ ∃ r ∈ recs, t ∈ r.fields.keys := by
    intro recs
    induction recs with
    | nil => intro fs _ h; simpa using h
    | cons r recs ih =>
      intro fs hw hf
      have hnd : (fs ++ r.fields.keys.filter (fun t => t ∉ fs)).Nodup := by
        rw [List.nodup_append]
        refine ⟨hf, (hw r (by simp)).filter _, ?_⟩
        intro x hx y hy e
        subst e
        have := (List.mem_filter.1 hy).2
        simp at this
        exact this hx
      obtain ⟨h1, h2⟩ := ih _ (fun x hx => hw x (List.mem_cons_of_mem _ hx)) hnd
      refine ⟨h1, fun t => ?_⟩
      rw [List.foldl_cons, h2]
      simp only [List.mem_append, List.mem_filter, decide_eq_true_eq, List.mem_cons, exists_eq_or_imp]
      constructor
      · rintro ((h | h) | h)
        · exact Or.inl h
        · exact Or.inr (Or.inl h.1)
        · exact Or.inr (Or.inr h)
      · rintro (h | h | h)
        · exact Or.inl (Or.inl h)
        · by_cases hm : t ∈ fs
          · exact Or.inl (Or.inl hm)
          · exact Or.inl (Or.inr ⟨h, hm⟩)
        · exact Or.inr h
  have h := this recs [] hw List.nodup_nil
  refine ⟨h.1, fun t => ?_⟩
  have h2 := h.2 t
  simp only [List.not_mem_nil, false_or] at h2
  exact h2

theorem listed_raw (u : Bool) (source : List (Rec γ)) (k : Key γ) (h : Listed u .raw source k) : ∃ r ∈ source, k = .record r.id := by
  obtain ⟨c, v, h1, h2⟩ := h
  unfold sourceFor at h1
  obtain ⟨r, hr, hv⟩ := List.exists_of_findSome?_eq_some h1
  split at hv
  · unfold valueOf at hv
    dsimp only at hv
    split at hv
    · cases hv
    · cases hv
      simp [elements] at h2
      exact ⟨r, List.mem_reverse.1 hr, h2⟩
  · cases hv

theorem recOf_record (source : List (Rec γ)) (hid : (source.map Rec.id).Nodup) (r : Rec γ) (hr : r ∈ source) : recOf source (.record r.id) = some r := by
  unfold recOf
  dsimp only
  induction source with
  | nil => cases hr
  | cons a source ih =>
    simp only [List.map_cons, List.nodup_cons] at hid
    rcases List.mem_cons.1 hr with rfl | hr
    · rw [List.find?_cons_of_pos (by simp)]
    · rw [List.find?_cons_of_neg (by
        simp
        intro e
        exact hid.1 (by rw [e]; exact List.mem_map_of_mem hr)), ih hid.2 hr]

/-- The tags of the sources are no names of other columns. -/
def TagsFree (source : List (Rec γ)) : Prop := ∀ r ∈ source, ∀ t ∈ r.fields.keys, t ≠ targetCol ∧ t ≠ sourceCol ∧ t ≠ authorsCol

theorem recOf_mem (source : List (Rec γ)) (k : Key γ) (r : Rec γ) (h : recOf source k = some r) : r ∈ source ∧ k = .record r.id := by
  cases k with
  | val v => cases h
  | record id =>
    have h' : source.find? (fun r => decide (r.id = id)) = some r := h
    have := List.find?_some h'
    simp at this
    exact ⟨List.mem_of_find?_eq_some h', by rw [this]⟩

open Classical in
/-- C74: the table of records. Every source that is counted has one row with its count (and its count in the sources themselves); the columns are the count, the
number of authors, the local count and all tags these records have, each showing the value of the row's record. -/
theorem C74_raw (authors : Rec γ → Option Nat) (numAuthors compare u : Bool) (source target : List (Rec γ)) (hid : (source.map Rec.id).Nodup)
    (hw : ∀ r ∈ source, Dict.WF r.fields) (hfree : TagsFree source) (ha : numAuthors = true → ∀ r ∈ source, authors r ≠ none) (hcu : compare = true → u = true) :
    ∃ rows t, rawTable authors numAuthors compare u source target = .ok t ∧
      Shows (columns authors numAuthors compare none (tagsOf (rows.map Row.record))) rows t ∧
      (rows.map (fun r => r.record.id)).Nodup ∧
      (∀ s ∈ source, (∃ r ∈ rows, r.record = s) ↔ Listed u .raw source (.record s.id)) ∧
      (∀ r ∈ rows, r.record ∈ source ∧ r.count = hits u .raw source target (.record r.record.id) ∧
        (compare = true → r.loc = some (hits true .raw source source (.record r.record.id)))) ∧
      ∀ t, t ∈ tagsOf (rows.map Row.record) ↔ ∃ r ∈ rows, t ∈ r.record.fields.keys := by
  obtain ⟨main, m1, m2, m3⟩ := Verif.Props.DiffusionCount.C45_count u .raw source target trivial
  obtain ⟨locd, l1, l2, l3⟩ := Verif.Props.DiffusionCount.C45_count true .raw source source trivial
  let loc : Dict (Key γ) Nat := if compare then locd else []
  have hloc : (if compare then diffusionCount true .raw source source else .ok []) = .ok loc := by
    cases compare
    · rfl
    · exact l1
  let rows : List (Row γ) := main.filterMap (fun kn => (recOf source kn.1).map (fun r => (⟨r, kn.2, none, loc.get? kn.1⟩ : Row γ)))
  have hrow : ∀ r ∈ rows, r.record ∈ source ∧ main.get? (.record r.record.id) = some r.count ∧ r.loc = loc.get? (.record r.record.id) := by
    intro r hr
    obtain ⟨kn, hkn, e⟩ := List.mem_filterMap.1 hr
    cases hrec : recOf source kn.1 with
    | none => rw [hrec] at e; cases e
    | some s =>
      rw [hrec] at e
      cases e
      obtain ⟨h1, h2⟩ := recOf_mem _ _ _ hrec
      refine ⟨h1, ?_, by rw [h2]⟩
      dsimp only
      rw [← h2]
      exact Dict.get?_of_mem m2 hkn
  have hmem : ∀ s ∈ source, (∃ r ∈ rows, r.record = s) ↔ Listed u .raw source (.record s.id) := by
    intro s hs
    constructor
    · rintro ⟨r, hr, rfl⟩
      have := (hrow r hr).2.1
      rw [m3] at this
      by_contra hne
      rw [if_neg hne] at this
      cases this
    · intro hl
      have hg : main.get? (.record s.id) = some (hits u .raw source target (.record s.id)) := by rw [m3, if_pos hl]
      refine ⟨⟨s, hits u .raw source target (.record s.id), none, loc.get? (.record s.id)⟩, ?_, rfl⟩
      exact List.mem_filterMap.2 ⟨_, Dict.mem_of_get? hg, by rw [recOf_record source hid s hs]; rfl⟩
  have hnd : (rows.map (fun r => r.record.id)).Nodup := by
    have hsub : ∀ (m : Dict (Key γ) Nat), (m.filterMap (fun kn => (recOf source kn.1).map (fun r => (⟨r, kn.2, none, loc.get? kn.1⟩ : Row γ)))).map
        (fun r => Key.record (γ := γ) r.record.id) |>.Sublist m.keys := by
      intro m
      induction m with
      | nil => exact List.Sublist.refl _
      | cons kn m ih =>
        rw [List.filterMap_cons]
        cases hrec : recOf source kn.1 with
        | none => exact List.Sublist.cons _ ih
        | some s =>
          have := (recOf_mem _ _ _ hrec).2
          show List.Sublist (Key.record s.id :: _) (kn.1 :: Dict.keys m)
          rw [← this]
          exact List.Sublist.cons_cons _ ih
    have h := (hsub main).nodup m2
    have h' : (rows.map (fun r => r.record.id)).map (Key.record (γ := γ)) = rows.map (fun r => Key.record (γ := γ) r.record.id) := by
      rw [List.map_map]; rfl
    rw [show rows.map (fun r => Key.record (γ := γ) r.record.id) = _ from h'.symm] at h
    exact List.Nodup.of_map _ h
  obtain ⟨t1, t2⟩ := tagsOf_spec (rows.map Row.record) (by
    intro r hr
    obtain ⟨x, hx, rfl⟩ := List.mem_map.1 hr
    exact hw _ (hrow x hx).1)
  have htags : ∀ t, t ∈ tagsOf (rows.map Row.record) ↔ ∃ r ∈ rows, t ∈ r.record.fields.keys := by
    intro t
    rw [t2]
    simp
  have hcl : NoClash none (tagsOf (rows.map Row.record)) := by
    refine ⟨?_, by simp⟩
    intro t ht
    rcases ht with ht | ht
    · obtain ⟨r, hr, h⟩ := (htags t).1 ht
      exact hfree _ (hrow r hr).1 t h
    · cases ht
  have hcount : ∀ r ∈ rows, Listed u .raw source (.record r.record.id) := fun r hr => (hmem _ (hrow r hr).1).1 ⟨r, hr, rfl⟩
  have hlocs : ∀ r ∈ rows, compare = true → r.loc = some (hits true .raw source source (.record r.record.id)) := by
    intro r hr hc
    have hl := hcount r hr
    rw [hcu hc] at hl
    rw [(hrow r hr).2.2]
    show Dict.get? (if compare then locd else []) _ = _
    rw [if_pos hc, l3, if_pos hl]
  obtain ⟨t, h1, h2⟩ := rawRows_shows authors numAuthors compare none _ t1 hcl rows (by
    intro r hr
    refine ⟨fun h => ha h _ (hrow r hr).1, ?_, by simp⟩
    intro hc
    rw [hlocs r hr hc]; simp)
  refine ⟨rows, t, ?_, h2, hnd, hmem, ?_, htags⟩
  · unfold rawTable
    rw [m1]
    dsimp only
    rw [hloc]
    exact h1
  · intro r hr
    refine ⟨(hrow r hr).1, ?_, hlocs r hr⟩
    have h := (hrow r hr).2.1
    rw [m3, if_pos (hcount r hr)] at h
    exact (Option.some.inj h).symm

/-! ## With the values of another field -/

/-- The count a row shows for a source and a value. -/
def pairCount (mapping : Atom γ → Atom γ) (extra : Str) (u : Bool) (ty : NodeType) (source target : List (Rec γ)) (k : Key γ) (x : Atom γ) : Nat :=
  jointHits mapping extra u ty source target k x + if x = targetCount then hits u ty source target k else 0

theorem effect_WF (mapping : Atom γ → Atom γ) (extra : Str) (sd : γ → Option (Key γ)) (k : Key γ) (ts : List (Rec γ)) (m : Dict (Atom γ) Nat) (hm : Dict.WF m)
    :
    Dict.WF (Verif.Props.DiffusionCount.effect (fun r m => (extraVals mapping extra r).foldl Dict.incr (m.incr targetCount)) sd k ts m) := by
  have ht : ∀ (f : Dict (Atom γ) Nat → Dict (Atom γ) Nat), (∀ d, Dict.WF d → Dict.WF (f d)) → ∀ n d, Dict.WF d → Dict.WF (Verif.Props.DiffusionCount.times f n d) := by
    intro f hf n
    induction n with
    | zero => intro d h; exact h
    | succ n ih => intro d h; exact ih _ (hf _ h)
  unfold Verif.Props.DiffusionCount.effect
  induction ts generalizing m with
  | nil => exact hm
  | cons t ts ih =>
    rw [List.foldl_cons]
    exact ih _ (ht _ (fun d h => Dict.WF_foldl_incr _ (Dict.WF_incr h _)) _ m hm)

theorem foldl_incr_key (x : Atom γ) (l : List (Atom γ)) (d : Dict (Atom γ) Nat) (h : x ∈ d.keys) : x ∈ (l.foldl Dict.incr d).keys := by
  induction l generalizing d with
  | nil => exact h
  | cons a l ih =>
    apply ih
    unfold Dict.incr
    split <;> exact (Dict.mem_keys_set _ _ _ _).2 (Or.inr h)

theorem effect_key (mapping : Atom γ → Atom γ) (extra : Str) (sd : γ → Option (Key γ)) (k : Key γ) (ts : List (Rec γ)) (m : Dict (Atom γ) Nat)
    (hm : targetCount ∈ m.keys) :
    targetCount ∈ (Verif.Props.DiffusionCount.effect (fun r m => (extraVals mapping extra r).foldl Dict.incr (m.incr targetCount)) sd k ts m).keys := by
  have ht : ∀ (f : Dict (Atom γ) Nat → Dict (Atom γ) Nat), (∀ d, targetCount ∈ d.keys → targetCount ∈ (f d).keys) →
      ∀ n d, targetCount ∈ d.keys → targetCount ∈ (Verif.Props.DiffusionCount.times f n d).keys := by
    intro f hf n
    induction n with
    | zero => intro d h; exact h
    | succ n ih => intro d h; exact ih _ (hf _ h)
  unfold Verif.Props.DiffusionCount.effect
  induction ts generalizing m with
  | nil => exact hm
  | cons t ts ih =>
    rw [List.foldl_cons]
    exact ih _ (ht _ (fun d h => foldl_incr_key _ _ _ (foldl_incr_key targetCount [targetCount] d h)) _ m hm)

open Classical in
theorem extra_counts (mapping : Atom γ → Atom γ) (extra : Str) (u : Bool) (ty : NodeType) (source target : List (Rec γ)) (hu : Uniform ty source) :
    ∃ d, diffusionCountExtra mapping extra u ty source target = .ok d ∧ Dict.WF d ∧
      ∀ k, (Listed u ty source k → ∃ m, d.get? k = some m ∧ Dict.WF m ∧ targetCount ∈ m.keys ∧ ∀ x, m.cnt x = pairCount mapping extra u ty source target k x) ∧
        (¬ Listed u ty source k → d.get? k = none) := by
  obtain ⟨d, h1, h2, h3⟩ := Verif.Props.DiffusionCount.C45_extra mapping extra u ty source target hu
  obtain ⟨d', h1', _, h3'⟩ := Verif.Props.DiffusionCount.countWith_spec (S := Dict (Atom γ) Nat) [(targetCount, 0)]
    (fun r m => (extraVals mapping extra r).foldl Dict.incr (Dict.incr m targetCount)) u ty source target hu
  have hd : d = d' := by
    have : Except.ok d = Except.ok d' := h1.symm.trans h1'
    exact Except.ok.inj this
  subst hd
  refine ⟨d, h1, h2, fun k => ⟨fun hl => ?_, (h3 k).2⟩⟩
  obtain ⟨m, m1, m2, m3⟩ := (h3 k).1 hl
  have m4 := h3' k
  rw [if_pos hl, m1] at m4
  have m5 := Option.some.inj m4
  refine ⟨m, m1, ?_, ?_, ?_⟩
  · rw [m5]
    exact effect_WF mapping extra _ k target _ (by simp [Dict.WF, Dict.keys])
  · rw [m5]
    exact effect_key mapping extra _ k target _ (by simp [Dict.keys])
  · intro x
    unfold pairCount
    by_cases hx : x = targetCount
    · subst hx; rw [m3, if_pos rfl]; omega
    · rw [m2 x hx, if_neg hx]; omega

/-- What the rows of the table with another field are. -/
def ExtraRows (mapping : Atom γ → Atom γ) (extra : Str) (compare u : Bool) (source target : List (Rec γ)) (rows : List (Row γ)) : Prop :=
  (rows.map (fun r => (r.record.id, r.label))).Nodup ∧
  (∀ r ∈ rows, r.record ∈ source ∧ Listed u .raw source (.record r.record.id) ∧
    ∃ x, r.label = some x ∧ r.count = pairCount mapping extra u .raw source target (.record r.record.id) x ∧
      (compare = true → u = true → r.loc = some (pairCount id extra true .raw source source (.record r.record.id) x))) ∧
  ∀ s ∈ source, Listed u .raw source (.record s.id) → ∀ x, x = targetCount ∨ 0 < pairCount mapping extra u .raw source target (.record s.id) x →
    ∃ r ∈ rows, r.record = s ∧ r.label = some x

theorem rawTableExtra_eq (authors : Rec γ → Option Nat) (mapping : Atom γ → Atom γ) (extra : Str) (numAuthors compare u : Bool) (source target : List (Rec γ))
    (hid : (source.map Rec.id).Nodup) :
    ∃ rows, rawTableExtra authors mapping extra numAuthors compare u source target =
        rawRows authors numAuthors compare (some extra) (tagsOf (rows.map Row.record)) rows (rawInit numAuthors compare (some extra) (tagsOf (rows.map Row.record))) ∧
      (∀ r ∈ rows, r.loc ≠ none ∧ r.label ≠ none) ∧ ExtraRows mapping extra compare u source target rows := by
  classical
  obtain ⟨main, m1, m2, m3⟩ := extra_counts mapping extra u .raw source target trivial
  obtain ⟨locd, l1, l2, l3⟩ := extra_counts id extra true .raw source source trivial
  obtain ⟨loc, hloc, hl⟩ : ∃ loc, (if compare then diffusionCountExtra id extra true .raw source source else .ok []) = .ok loc ∧ (compare = true → loc = locd) := by
    cases compare
    · exact ⟨[], rfl, by simp⟩
    · exact ⟨locd, l1, fun _ => rfl⟩
  have hF : ∀ kn r, r ∈ extraRows source loc kn → r.record ∈ source ∧ kn.1 = .record r.record.id ∧ ∃ an ∈ kn.2, r.label = some an.1 ∧ r.count = an.2 ∧
      r.loc = some (((loc.get? kn.1).bind (fun m => m.get? an.1)).getD 0) := by
    intro kn r hr
    show _ ∧ _
    unfold extraRows at hr
    cases hrec : recOf source kn.1 with
    | none => rw [hrec] at hr; cases hr
    | some s =>
      rw [hrec] at hr
      obtain ⟨an, han, rfl⟩ := List.mem_map.1 hr
      obtain ⟨h1, h2⟩ := recOf_mem _ _ _ hrec
      exact ⟨h1, h2, an, han, rfl, rfl, rfl⟩
  have hmain : ∀ kn ∈ main, Listed u .raw source kn.1 ∧ Dict.WF kn.2 ∧ targetCount ∈ kn.2.keys ∧ ∀ x, kn.2.cnt x = pairCount mapping extra u .raw source target kn.1 x := by
    intro kn hkn
    have hg := Dict.get?_of_mem m2 hkn
    by_cases hli : Listed u .raw source kn.1
    · obtain ⟨m, a1, a2, a3, a4⟩ := (m3 kn.1).1 hli
      rw [hg] at a1
      cases a1
      exact ⟨hli, a2, a3, a4⟩
    · rw [(m3 kn.1).2 hli] at hg; cases hg
  refine ⟨main.flatMap (extraRows source loc), ?_, ?_, ?_, ?_, ?_⟩
  · unfold rawTableExtra
    rw [m1]
    dsimp only
    rw [hloc]
  · intro r hr
    obtain ⟨kn, hkn, hr⟩ := List.mem_flatMap.1 hr
    obtain ⟨_, _, an, _, e1, _, e3⟩ := hF kn r hr
    rw [e1, e3]
    simp
  · rw [List.map_flatMap, List.nodup_flatMap]
    constructor
    · intro kn hkn
      unfold extraRows
      cases hrec : recOf source kn.1 with
      | none => simp
      | some s =>
        dsimp only
        rw [List.map_map]
        have h := (hmain kn hkn).2.1
        unfold Dict.WF Dict.keys at h
        have : (fun (r : Row γ) => (r.record.id, r.label)) ∘ (fun (an : Atom γ × Nat) => (⟨s, an.2, some an.1, some (((loc.get? kn.1).bind (fun m => m.get? an.1)).getD 0)⟩ : Row γ))
            = (fun a => (s.id, some a)) ∘ Prod.fst := rfl
        rw [this, ← List.map_map]
        exact List.Nodup.map (fun a b e => by simpa using e) h
    · have h := m2
      unfold Dict.WF Dict.keys at h
      have hp := List.pairwise_map.1 h
      refine hp.imp ?_
      intro a b hab x hx hy
      obtain ⟨r1, hr1, rfl⟩ := List.mem_map.1 hx
      obtain ⟨r2, hr2, e⟩ := List.mem_map.1 hy
      have e1 := (hF a r1 hr1).2.1
      have e2 := (hF b r2 hr2).2.1
      have e3 : r2.record.id = r1.record.id := congrArg Prod.fst e
      exact hab (by rw [e1, e2, e3])
  · intro r hr
    obtain ⟨kn, hkn, hr⟩ := List.mem_flatMap.1 hr
    obtain ⟨h1, h2, an, han, e1, e2, e3⟩ := hF kn r hr
    obtain ⟨g1, g2, _, g4⟩ := hmain kn hkn
    refine ⟨h1, h2 ▸ g1, an.1, e1, ?_, ?_⟩
    · rw [e2, ← h2, ← g4, Dict.cnt, Dict.get?_of_mem g2 han]; rfl
    · intro hc hu
      rw [hu] at g1
      obtain ⟨m, a1, a2, a3, a4⟩ := (l3 kn.1).1 g1
      rw [e3, hl hc, a1, ← h2, ← a4]
      rfl
  · intro s hs hli x hx
    obtain ⟨m, a1, a2, a3, a4⟩ := (m3 _).1 hli
    have hk : x ∈ m.keys := by
      rcases hx with rfl | hx
      · exact a3
      · rw [← a4, Dict.cnt] at hx
        rw [Dict.mem_keys_iff]
        cases hg : m.get? x with
        | none => rw [hg] at hx; exact absurd hx (by simp)
        | some n => rfl
    rw [Dict.mem_keys_iff, Option.isSome_iff_exists] at hk
    obtain ⟨n, hn⟩ := hk
    have hin : (⟨s, n, some x, some (((loc.get? (.record s.id)).bind (fun m => m.get? x)).getD 0)⟩ : Row γ) ∈ extraRows source loc (.record s.id, m) := by
      unfold extraRows
      rw [recOf_record source hid s hs]
      exact List.mem_map.2 ⟨(x, n), Dict.mem_of_get? hn, rfl⟩
    exact ⟨_, List.mem_flatMap.2 ⟨_, Dict.mem_of_get? a1, hin⟩, rfl, rfl⟩

theorem extraRows_tags {mapping : Atom γ → Atom γ} {extra : Str} {compare u : Bool} {source target : List (Rec γ)} {rows : List (Row γ)}
    (hw : ∀ r ∈ source, Dict.WF r.fields) (h : ExtraRows mapping extra compare u source target rows) :
    (tagsOf (rows.map Row.record)).Nodup ∧ ∀ t, t ∈ tagsOf (rows.map Row.record) ↔ ∃ r ∈ rows, t ∈ r.record.fields.keys := by
  obtain ⟨t1, t2⟩ := tagsOf_spec (rows.map Row.record) (by
    intro r hr
    obtain ⟨x, hx, rfl⟩ := List.mem_map.1 hr
    exact hw _ (h.2.1 x hx).1)
  refine ⟨t1, fun t => ?_⟩
  rw [t2]
  simp

/-- C74: the table of records with the values of another field of the targets. There is one row for every source and value that come together, and one for the
total, each with its count (and local count). -/
theorem C74_raw_extra (authors : Rec γ → Option Nat) (mapping : Atom γ → Atom γ) (extra : Str) (numAuthors compare u : Bool) (source target : List (Rec γ))
    (hid : (source.map Rec.id).Nodup) (hw : ∀ r ∈ source, Dict.WF r.fields) (hfree : TagsFree source) (ha : numAuthors = true → ∀ r ∈ source, authors r ≠ none)
    (he : extra ≠ targetCol ∧ extra ≠ sourceCol ∧ extra ≠ authorsCol) (hne : ∀ r ∈ source, extra ∉ r.fields.keys) :
    ∃ rows t, rawTableExtra authors mapping extra numAuthors compare u source target = .ok t ∧
      Shows (columns authors numAuthors compare (some extra) (tagsOf (rows.map Row.record))) rows t ∧
      ExtraRows mapping extra compare u source target rows ∧
      ∀ t, t ∈ tagsOf (rows.map Row.record) ↔ ∃ r ∈ rows, t ∈ r.record.fields.keys := by
  obtain ⟨rows, h1, h2, h3⟩ := rawTableExtra_eq authors mapping extra numAuthors compare u source target hid
  obtain ⟨t1, t2⟩ := extraRows_tags hw h3
  obtain ⟨t, g1, g2⟩ := rawRows_shows authors numAuthors compare (some extra) _ t1 (by
    refine ⟨?_, ?_⟩
    · rintro t (ht | ht)
      · obtain ⟨r, hr, h⟩ := (t2 t).1 ht
        exact hfree _ (h3.2.1 r hr).1 t h
      · cases ht; exact he
    · rintro e hee ht
      cases hee
      obtain ⟨r, hr, h⟩ := (t2 extra).1 ht
      exact hne _ (h3.2.1 r hr).1 h) rows (by
    intro r hr
    exact ⟨fun h => ha h _ (h3.2.1 r hr).1, fun _ => (h2 r hr).1, fun _ => (h2 r hr).2⟩)
  exact ⟨rows, t, h1.trans g1, g2, h3, t2⟩

/-- C74: but if one of the counted sources has the extra field too (as when both collections come from the same kind of file), the column of that name has two
entries for every row, so that the columns have not the same length. -/
theorem C74_columns_collide (authors : Rec γ → Option Nat) (mapping : Atom γ → Atom γ) (extra : Str) (numAuthors compare u : Bool) (source target : List (Rec γ))
    (hid : (source.map Rec.id).Nodup) (hw : ∀ r ∈ source, Dict.WF r.fields) (hfree : TagsFree source) (ha : numAuthors = true → ∀ r ∈ source, authors r ≠ none)
    (he : extra ≠ targetCol ∧ extra ≠ sourceCol ∧ extra ≠ authorsCol) (s : Rec γ) (hs : s ∈ source) (hl : Listed u .raw source (.record s.id))
    (hse : extra ∈ s.fields.keys) :
    ∃ t a b, rawTableExtra authors mapping extra numAuthors compare u source target = .ok t ∧ t.get? targetCol = some a ∧ t.get? extra = some b ∧
      b.length = 2 * a.length ∧ a ≠ [] := by
  obtain ⟨rows, h1, h2, h3⟩ := rawTableExtra_eq authors mapping extra numAuthors compare u source target hid
  obtain ⟨t1, t2⟩ := extraRows_tags hw h3
  obtain ⟨r0, hr0, e0, _⟩ := h3.2.2 s hs hl targetCount (Or.inl rfl)
  have hin : extra ∈ tagsOf (rows.map Row.record) := (t2 extra).2 ⟨r0, hr0, by rw [e0]; exact hse⟩
  have hok : ∀ r ∈ rows, RowOk authors numAuthors compare (some extra) r := by
    intro r hr
    exact ⟨fun h => ha h _ (h3.2.1 r hr).1, fun _ => (h2 r hr).1, fun _ => (h2 r hr).2⟩
  generalize htg : tagsOf (rows.map Row.record) = tags at *
  rw [rawRows_eq _ _ _ _ _ _ _ hok] at h1
  have hT : targetCol ∉ tags := by
    intro h
    obtain ⟨r, hr, h⟩ := (t2 _).1 h
    exact (hfree _ (h3.2.1 r hr).1 _ h).1 rfl
  have hmap : (tags.map (fun t => (t, fun (r : Row γ) => Cell.val (r.record.fields.get? t)))).map Prod.fst = tags := by
    rw [List.map_map]; exact List.map_id' tags
  have c1 : ((columns authors numAuthors compare (some extra) tags).map Prod.fst).count targetCol = 1 := by
    unfold columns
    simp only [List.map_append, hmap, List.count_append, List.count_eq_zero.2 hT]
    have a1 : (Option.map (fun e => (e, fun (r : Row γ) => Cell.atom (r.label.getD targetCount))) (some extra)).toList.map Prod.fst = [extra] := rfl
    have d2 : authorsCol ≠ targetCol := by decide
    have d3 : sourceCol ≠ targetCol := by decide
    cases numAuthors <;> cases compare <;> simp [List.count_cons, he.1, d2, d3]
  have c2 : ((columns authors numAuthors compare (some extra) tags).map Prod.fst).count extra = 2 := by
    unfold columns
    simp only [List.map_append, hmap, List.count_append, List.count_eq_one_of_mem t1 hin]
    have d1 := Ne.symm he.1
    have d2 := Ne.symm he.2.1
    have d3 := Ne.symm he.2.2
    cases numAuthors <;> cases compare <;> simp [List.count_cons, d1, d2, d3]
  have hl1 := pushAll_length (columns authors numAuthors compare (some extra) tags) rows (rawInit numAuthors compare (some extra) tags) targetCol
  have hl2 := pushAll_length (columns authors numAuthors compare (some extra) tags) rows (rawInit numAuthors compare (some extra) tags) extra
  rw [rawInit_get, if_pos (Or.inl rfl), c1] at hl1
  rw [rawInit_get, if_pos (Or.inr (Or.inr (Or.inr (Or.inl rfl)))), c2] at hl2
  have hpos : 0 < rows.length := List.length_pos_of_mem hr0
  generalize pushAll (columns authors numAuthors compare (some extra) tags) rows (rawInit numAuthors compare (some extra) tags) = t at *
  simp only [Option.getD_some, List.length_nil, Nat.zero_add, Nat.mul_one] at hl1 hl2
  cases ha' : t.get? targetCol with
  | none => rw [ha', Option.getD_none, List.length_nil] at hl1; omega
  | some a =>
    cases hb' : t.get? extra with
    | none => rw [hb', Option.getD_none, List.length_nil] at hl2; omega
    | some b =>
      rw [ha'] at hl1
      rw [hb'] at hl2
      simp only [Option.getD_some] at hl1 hl2
      refine ⟨t, a, b, h1, ha', hb', by omega, ?_⟩
      intro e
      rw [e, List.length_nil] at hl1
      omega

/-! ## The tables of a tag -/

theorem get?_single {κ ν : Type} [DecidableEq κ] (k : κ) (v : ν) : Dict.get? [(k, v)] k = some v := by simp [Dict.get?]

theorem mapM_some {κ ν : Type} (l : List κ) (f : κ → Option ν) (g : κ → ν) (h : ∀ x ∈ l, f x = some (g x)) : l.mapM f = some (l.map g) := by
  induction l with
  | nil => rfl
  | cons a l ih =>
    rw [List.mapM_cons, h a (by simp), ih (fun x hx => h x (List.mem_cons_of_mem _ hx))]
    rfl

open Classical in
/-- C74: the table of a tag has a row for each counted value: the value, its count and (with `compareCounts`) its count among the sources. -/
theorem C74_tag (compare : Bool) (u : Bool) (hcu : compare = true → u = true) (tag : Str) (source target : List (Rec γ)) (hu : Uniform (.tag tag) source)
    (ht : tag ≠ targetCol ∧ tag ≠ sourceCol) :
    ∃ (ks : List (Key γ)) (t : Table γ), tagTable compare u tag source target = .ok t ∧ ks.Nodup ∧ (∀ k, k ∈ ks ↔ Listed u (.tag tag) source k) ∧
      t.get? tag = some (ks.map .key) ∧
      t.get? targetCol = some (ks.map (fun k => .num (hits u (.tag tag) source target k))) ∧
      t.get? sourceCol = (if compare then some (ks.map (fun k => .num (hits true (.tag tag) source source k))) else none) ∧
      ∀ n, n ∈ t.keys ↔ n = tag ∨ n = targetCol ∨ (compare = true ∧ n = sourceCol) := by
  obtain ⟨main, m1, m2, m3⟩ := Verif.Props.DiffusionCount.C45_count u (.tag tag) source target hu
  obtain ⟨locd, l1, l2, l3⟩ := Verif.Props.DiffusionCount.C45_count true (.tag tag) source source hu
  have hk : ∀ k, k ∈ main.keys ↔ Listed u (.tag tag) source k := by
    intro k
    rw [Dict.mem_keys_iff, m3]
    split <;> simp [*]
  have hv : main.map (fun kn => Cell.num (γ := γ) kn.2) = main.keys.map (fun k => .num (hits u (.tag tag) source target k)) := by
    unfold Dict.keys
    rw [List.map_map]
    apply List.map_congr_left
    intro kn hkn
    have h1 := Dict.get?_of_mem m2 hkn
    rw [m3, if_pos ((hk _).1 (List.mem_map_of_mem hkn))] at h1
    show Cell.num kn.2 = Cell.num _
    rw [← Option.some.inj h1]
  have hkey : main.map (fun kn => Cell.key kn.1) = main.keys.map .key := by
    unfold Dict.keys
    rw [List.map_map]; rfl
  have d1 : targetCol ≠ sourceCol := by decide
  unfold tagTable
  simp only [targetCol_eq, sourceCol_eq, authorsCol_eq]
  rw [m1]
  dsimp only
  rw [hv, hkey]
  cases compare with
  | false =>
    refine ⟨main.keys, _, rfl, m2, hk, ?_, ?_, ?_, ?_⟩
    · rw [Dict.get?_set_ne _ _ (Ne.symm ht.1)]; simp [Dict.get?]
    · rw [Dict.get?_set_self]
    · rw [Dict.get?_set_ne _ _ d1]; simp [Dict.get?, ht.2]
    · intro n
      rw [Dict.mem_keys_set]
      simp [Dict.keys, or_comm]
  | true =>
    rw [if_pos rfl, l1]
    dsimp only
    have hns : main.mapM (fun kn => locd.get? kn.1) = some (main.map (fun kn => hits true (.tag tag) source source kn.1)) := by
      apply mapM_some
      intro kn hkn
      have hl := (hk kn.1).1 (List.mem_map_of_mem hkn)
      rw [hcu rfl] at hl
      rw [l3, if_pos hl]
    rw [hns]
    dsimp only
    have hns' : (main.map (fun kn => hits true (.tag tag) source source kn.1)).map (Cell.num (γ := γ)) = main.keys.map (fun k => .num (hits true (.tag tag) source source k)) := by
      unfold Dict.keys
      rw [List.map_map, List.map_map]; rfl
    rw [hns']
    refine ⟨main.keys, _, rfl, m2, hk, ?_, ?_, ?_, ?_⟩
    · rw [Dict.get?_set_ne _ _ (Ne.symm ht.2), Dict.get?_set_ne _ _ (Ne.symm ht.1)]; simp [Dict.get?]
    · rw [Dict.get?_set_ne _ _ (Ne.symm d1), Dict.get?_set_self]
    · rw [Dict.get?_set_self]; rfl
    · intro n
      rw [Dict.mem_keys_set, Dict.mem_keys_set]
      simp only [Dict.keys, List.map_cons, List.map_nil, List.mem_singleton, true_and]
      constructor
      · rintro (h | h | h)
        · exact Or.inr (Or.inr h)
        · exact Or.inr (Or.inl h)
        · exact Or.inl h
      · rintro (h | h | h)
        · exact Or.inr (Or.inr h)
        · exact Or.inr (Or.inl h)
        · exact Or.inl h

/-- C74: the table of a tag with the values of another field. It has a row for each pair of values that come together, and one for the total. With
`compareCounts` the local counts are all 0, unless the *name* of the other field is itself one of its values. -/
theorem C74_tag_extra (mapping : Atom γ → Atom γ) (extra : Str) (compare u : Bool) (tag : Str) (source target : List (Rec γ)) (hu : Uniform (.tag tag) source)
    (ht : tag ≠ targetCol ∧ tag ≠ sourceCol) (he : extra ≠ targetCol ∧ extra ≠ sourceCol ∧ extra ≠ tag) :
    ∃ (rows : List (Key γ × Atom γ)) (t : Table γ), tagTableExtra mapping extra compare u tag source target = .ok t ∧ rows.Nodup ∧
      (∀ p ∈ rows, Listed u (.tag tag) source p.1) ∧
      (∀ k x, Listed u (.tag tag) source k → x = targetCount ∨ 0 < pairCount mapping extra u (.tag tag) source target k x → (k, x) ∈ rows) ∧
      t.get? tag = some (rows.map (fun p => .key p.1)) ∧ t.get? extra = some (rows.map (fun p => .atom p.2)) ∧
      t.get? targetCol = some (rows.map (fun p => .num (pairCount mapping extra u (.tag tag) source target p.1 p.2))) ∧
      (compare = true → (∀ r ∈ source, .str extra ∉ extraVals id extra r) → t.get? sourceCol = some (rows.map (fun _ => .num 0))) := by
  classical
  obtain ⟨main, m1, m2, m3⟩ := extra_counts mapping extra u (.tag tag) source target hu
  obtain ⟨locd, l1, l2, l3⟩ := extra_counts id extra true (.tag tag) source source hu
  have hmain : ∀ kn ∈ main, Listed u (.tag tag) source kn.1 ∧ Dict.WF kn.2 ∧ targetCount ∈ kn.2.keys ∧
      ∀ x, kn.2.cnt x = pairCount mapping extra u (.tag tag) source target kn.1 x := by
    intro kn hkn
    have hg := Dict.get?_of_mem m2 hkn
    by_cases hli : Listed u (.tag tag) source kn.1
    · obtain ⟨m, a1, a2, a3, a4⟩ := (m3 kn.1).1 hli
      rw [hg] at a1
      cases a1
      exact ⟨hli, a2, a3, a4⟩
    · rw [(m3 kn.1).2 hli] at hg; cases hg
  have d1 : targetCol ≠ sourceCol := by decide
  let rows3 : List (Key γ × Atom γ × Nat) := main.flatMap (fun kn => kn.2.map (fun an => (kn.1, an.1, an.2)))
  have hr3 : ∀ p ∈ rows3, ∃ kn ∈ main, ∃ an ∈ kn.2, p = (kn.1, an.1, an.2) := by
    intro p hp
    obtain ⟨kn, hkn, hp⟩ := List.mem_flatMap.1 hp
    obtain ⟨an, han, rfl⟩ := List.mem_map.1 hp
    exact ⟨kn, hkn, an, han, rfl⟩
  have hcell : rows3.map (fun r => Cell.num (γ := γ) r.2.2) =
      (rows3.map (fun r => (r.1, r.2.1))).map (fun p => .num (pairCount mapping extra u (.tag tag) source target p.1 p.2)) := by
    rw [List.map_map]
    apply List.map_congr_left
    intro p hp
    obtain ⟨kn, hkn, an, han, rfl⟩ := hr3 p hp
    obtain ⟨_, g2, _, g4⟩ := hmain kn hkn
    show Cell.num an.2 = Cell.num (pairCount mapping extra u (.tag tag) source target kn.1 an.1)
    rw [← g4, Dict.cnt, Dict.get?_of_mem g2 han]; rfl
  have hkeys : rows3.map (fun r => Cell.key (γ := γ) r.1) = (rows3.map (fun r => (r.1, r.2.1))).map (fun p => .key p.1) := by rw [List.map_map]; rfl
  have hatoms : rows3.map (fun r => Cell.atom (γ := γ) r.2.1) = (rows3.map (fun r => (r.1, r.2.1))).map (fun p => .atom p.2) := by rw [List.map_map]; rfl
  have hzero : (∀ r ∈ source, .str extra ∉ extraVals id extra r) → ∀ k, ((locd.get? k).bind (fun m => m.get? (.str extra))).getD 0 = 0 := by
    intro hno k
    by_cases hli : Listed true (.tag tag) source k
    · obtain ⟨m, a1, a2, a3, a4⟩ := (l3 k).1 hli
      rw [a1]
      show m.cnt (.str extra) = 0
      rw [a4, pairCount, if_neg (by
        intro h
        have : extra = targetCol := by injection h
        exact he.1 this)]
      rw [Nat.add_zero]
      unfold jointHits
      rw [Verif.Props.DiffusionCount.sum_zero_iff]
      intro n hn
      obtain ⟨r, hr, rfl⟩ := List.mem_map.1 hn
      have h := hno r hr
      unfold extraVals at h
      rw [Nat.mul_eq_zero]
      right
      cases hf : r.fields.get? extra with
      | none => rfl
      | some v =>
        rw [hf] at h
        cases v with
        | atom a => exact List.count_eq_zero.2 h
        | list l => exact List.count_eq_zero.2 h
    · rw [(l3 k).2 hli]; rfl
  have hnd : (rows3.map (fun r => (r.1, r.2.1))).Nodup := by
    show ((main.flatMap _).map _).Nodup
    rw [List.map_flatMap, List.nodup_flatMap]
    constructor
    · intro kn hkn
      rw [List.map_map]
      have h := (hmain kn hkn).2.1
      unfold Dict.WF Dict.keys at h
      have : (fun (r : Key γ × Atom γ × Nat) => (r.1, r.2.1)) ∘ (fun (an : Atom γ × Nat) => (kn.1, an.1, an.2)) = (fun a => (kn.1, a)) ∘ Prod.fst := rfl
      rw [this, ← List.map_map]
      exact List.Nodup.map (fun a b e => by simpa using e) h
    · have h := m2
      unfold Dict.WF Dict.keys at h
      refine (List.pairwise_map.1 h).imp ?_
      intro a b hab x hx hy
      dsimp only at hx hy
      rw [List.map_map] at hx hy
      obtain ⟨a1, _, rfl⟩ := List.mem_map.1 hx
      obtain ⟨b1, _, e⟩ := List.mem_map.1 hy
      exact hab (congrArg Prod.fst e).symm
  have hlist : ∀ p ∈ rows3.map (fun r => (r.1, r.2.1)), Listed u (.tag tag) source p.1 := by
    intro p hp
    obtain ⟨r, hr, rfl⟩ := List.mem_map.1 hp
    obtain ⟨kn, hkn, an, han, rfl⟩ := hr3 r hr
    exact (hmain kn hkn).1
  have hall : ∀ k x, Listed u (.tag tag) source k → x = targetCount ∨ 0 < pairCount mapping extra u (.tag tag) source target k x → (k, x) ∈ rows3.map (fun r => (r.1, r.2.1)) := by
    intro k x hli hx
    obtain ⟨m, a1, a2, a3, a4⟩ := (m3 _).1 hli
    have hk : x ∈ m.keys := by
      rcases hx with rfl | hx
      · exact a3
      · rw [← a4, Dict.cnt] at hx
        rw [Dict.mem_keys_iff]
        cases hg : m.get? x with
        | none => rw [hg] at hx; exact absurd hx (by simp)
        | some n => rfl
    rw [Dict.mem_keys_iff, Option.isSome_iff_exists] at hk
    obtain ⟨n, hn⟩ := hk
    exact List.mem_map.2 ⟨(k, x, n), List.mem_flatMap.2 ⟨_, Dict.mem_of_get? a1, List.mem_map.2 ⟨(x, n), Dict.mem_of_get? hn, rfl⟩⟩, rfl⟩
  unfold tagTableExtra
  simp only [targetCol_eq, sourceCol_eq, authorsCol_eq]
  rw [m1]
  dsimp only
  cases compare with
  | false =>
    refine ⟨_, _, rfl, hnd, hlist, hall, ?_, ?_, ?_, by simp⟩
    · rw [Dict.get?_set_ne _ _ he.2.2, Dict.get?_set_ne _ _ (Ne.symm ht.1)]
      exact (get?_single _ _).trans (congrArg some hkeys)
    · rw [Dict.get?_set_self]
      exact congrArg some hatoms
    · rw [Dict.get?_set_ne _ _ he.1, Dict.get?_set_self]
      exact congrArg some hcell
  | true =>
    rw [if_pos rfl, l1]
    dsimp only
    refine ⟨_, _, rfl, hnd, hlist, hall, ?_, ?_, ?_, ?_⟩
    · rw [Dict.get?_set_ne _ _ he.2.2, Dict.get?_set_ne _ _ (Ne.symm ht.2), Dict.get?_set_ne _ _ (Ne.symm ht.1)]
      exact (get?_single _ _).trans (congrArg some hkeys)
    · rw [Dict.get?_set_self]
      exact congrArg some hatoms
    · rw [Dict.get?_set_ne _ _ he.1, Dict.get?_set_ne _ _ (Ne.symm d1), Dict.get?_set_self]
      exact congrArg some hcell
    · intro _ hno
      rw [Dict.get?_set_ne _ _ he.2.1, Dict.get?_set_self, List.map_map]
      congr 1
      apply List.map_congr_left
      intro p _
      show Cell.num _ = Cell.num 0
      rw [hzero hno]

/-! ## Counts added to a graph -/

/-- The name of the node that a key of the counts is for. -/
def keyText (sh : Key γ → Str) : Key γ → Str
  | .val (.atom (.str s)) => s
  | k => sh k

/-- A key of the counts that is a string. -/
def Text (k : Key γ) : Prop := ∃ s, k = .val (.atom (.str s))

theorem isStr_iff (k : Key γ) : (isStr k = true ↔ Text k) ∧ (isStr k = false ↔ ¬ Text k) := by
  have h : isStr k = true ↔ Text k := by
    constructor
    · intro h
      unfold isStr at h
      split at h
      · exact ⟨_, rfl⟩
      · cases h
    · rintro ⟨s, rfl⟩; rfl
  exact ⟨h, by rw [← h]; simp⟩

variable {S α : Type}

theorem prepare_get (sh : Key γ → Str) (counts : Dict (Key γ) S) (hw : Dict.WF counts)
    (hk : (∀ k ∈ counts.keys, isStr k = true) ∨ ∀ k ∈ counts.keys, isStr k = false) (n : Str) :
    (prepare sh counts).1.get? (.val (.atom (.str n))) = (counts.find? (fun p => decide (keyText sh p.1 = n))).map Prod.snd := by
  cases counts with
  | nil => rfl
  | cons kv rest =>
    unfold prepare
    dsimp only
    rcases hk with hk | hk
    · rw [if_pos (hk kv.1 (by simp [Dict.keys]))]
      dsimp only
      clear hw
      generalize kv :: rest = d at hk
      induction d with
      | nil => rfl
      | cons p d ih =>
        have hp := hk p.1 (by simp [Dict.keys])
        obtain ⟨k, v⟩ := p
        have hd := ih (fun k h => hk k (by simp only [Dict.keys, List.map_cons, List.mem_cons] at h ⊢; exact Or.inr h))
        match k, hp with
        | .val (.atom (.str s)), _ =>
          rw [List.find?_cons]
          by_cases e : s = n
          · subst e; simp [Dict.get?, keyText]
          · have : decide (keyText sh (.val (.atom (.str s))) = n) = false := by simp [keyText, e]
            rw [this]
            dsimp only
            rw [← hd]
            simp [Dict.get?, e]
    · rw [if_neg (by rw [hk kv.1 (by simp [Dict.keys])]; simp)]
      dsimp only
      clear hw
      generalize kv :: rest = d at hk
      rw [← List.foldr_eq_foldl_reverse]
      induction d with
      | nil => rfl
      | cons p d ih =>
        obtain ⟨k, v⟩ := p
        have hp := hk k (by simp [Dict.keys])
        have hd := ih (fun k h => hk k (by simp only [Dict.keys, List.map_cons, List.mem_cons] at h ⊢; exact Or.inr h))
        have ht : keyText sh k = sh k := by
          unfold keyText
          split
          · simp [isStr] at hp
          · rfl
        rw [List.foldr_cons, Dict.get?_set, hd, List.find?_cons, ht]
        by_cases e : sh k = n
        · simp [e]
        · simp [e]

/-- C74: every node of the graph gets the count of the key shown as its name — the first such key — or 0; its other attributes, the nodes and their order stay as
they are. -/
theorem C74_counts (sh : Key γ → Str) (label : Str) (nodes : Nodes γ α) (counts : Dict (Key γ) Nat) (hw : Dict.WF counts)
    (hk : (∀ k ∈ counts.keys, Text k) ∨ ∀ k ∈ counts.keys, ¬ Text k) :
    List.Forall₂ (fun n n' => n'.1 = n.1 ∧
        n'.2.get? (.str label) = some (.count (((counts.find? (fun p => decide (keyText sh p.1 = n.1))).map Prod.snd).getD 0)) ∧
        ∀ a, a ≠ .str label → n'.2.get? a = n.2.get? a)
      nodes (addCounts sh label nodes counts).1 := by
  simp only [← (isStr_iff _).1, Bool.not_eq_true] at hk
  unfold addCounts
  dsimp only
  rw [List.forall₂_map_right_iff, List.forall₂_same]
  intro n _
  refine ⟨rfl, ?_, ?_⟩
  · rw [Dict.get?_set_self, prepare_get sh counts hw hk]
  · intro a ha
    exact Dict.get?_set_ne _ _ (Ne.symm ha)

/-- C74: a dictionary of counts by strings that the caller gives is left as it is. -/
theorem C74_counts_kept (sh : Key γ → Str) (label : Str) (nodes : Nodes γ α) (counts : Dict (Key γ) Nat) :
    (∀ k ∈ counts.keys, Text k) → (addCounts sh label nodes counts).2 = counts := by
  intro h
  simp only [← (isStr_iff _).1, Bool.not_eq_true] at h
  unfold addCounts prepare
  cases counts with
  | nil => rfl
  | cons kv rest => dsimp only; rw [if_pos (h kv.1 (by simp [Dict.keys]))]

/-- C74: but one with other keys is empty afterwards. -/
theorem C74_counts_emptied (sh : Key γ → Str) (label : Str) (nodes : Nodes γ α) (counts : Dict (Key γ) Nat) :
    (∀ k ∈ counts.keys, ¬ Text k) → (addCounts sh label nodes counts).2 = [] := by
  intro h
  simp only [← (isStr_iff _).1, Bool.not_eq_true] at h
  unfold addCounts prepare
  cases counts with
  | nil => rfl
  | cons kv rest => dsimp only; rw [if_neg (by rw [h kv.1 (by simp [Dict.keys])]; simp)]

theorem foldl_extraKeys (ks : List (Atom γ)) (d : Dict (Atom γ) (Attr α)) (a : Atom γ) :
    (ks.foldl (fun d k => d.set k (.count 0)) d).get? a = if a ∈ ks then some (.count 0) else d.get? a := by
  induction ks generalizing d with
  | nil => simp
  | cons k ks ih =>
    rw [List.foldl_cons, ih, Dict.get?_set]
    by_cases h1 : a ∈ ks
    · simp [h1]
    · by_cases h2 : k = a
      · simp [h1, h2]
      · rw [if_neg h1, if_neg h2, if_neg (by simp [h1, Ne.symm h2])]

/-- The step for one value. -/
def addStep (label : Str) (d : Dict (Atom γ) (Attr α)) (kv : Atom γ × Nat) : Dict (Atom γ) (Attr α) :=
  if kv.1 = targetCount then d.set (.str label) (.count kv.2) else if truthyAtom kv.1 then d.set kv.1 (.count kv.2) else d

theorem foldl_addStep (label : Str) (m : Dict (Atom γ) Nat) (hm : Dict.WF m)
    (hl' : (Atom.str label : Atom γ) ∈ m.keys → (Atom.str label : Atom γ) = targetCount) (d : Dict (Atom γ) (Attr α)) :
    (m.foldl (addStep label) d).get? (.str label) = (match m.get? targetCount with | some n => some (.count n) | none => d.get? (.str label)) ∧
    ∀ a, a ≠ .str label → (m.foldl (addStep label) d).get? a =
      if a ≠ targetCount ∧ truthyAtom a = true then (match m.get? a with | some n => some (.count n) | none => d.get? a) else d.get? a := by
  induction m generalizing d with
  | nil => simp [Dict.get?]
  | cons kv m ih =>
    obtain ⟨k, v⟩ := kv
    have hm' : k ∉ Dict.keys m ∧ Dict.WF m := by
      unfold Dict.WF Dict.keys at hm ⊢
      simpa using hm
    obtain ⟨h1, h2⟩ := ih hm'.2 (fun h => hl' (by simp only [Dict.keys, List.map_cons, List.mem_cons] at h ⊢; exact Or.inr h)) (addStep label d (k, v))
    rw [List.foldl_cons]
    have hkn : Dict.get? m k = none := (Dict.get?_eq_none_iff m k).2 hm'.1
    constructor
    · rw [h1]
      unfold addStep
      by_cases hk : k = targetCount
      · subst hk
        rw [hkn]
        simp [Dict.get?]
      · have hg : Dict.get? ((k, v) :: m) targetCount = Dict.get? m targetCount := by simp [Dict.get?, hk]
        rw [hg]
        cases Dict.get? m targetCount with
        | some n => rfl
        | none =>
          dsimp only
          rw [if_neg hk]
          have hne : k ≠ .str label := by
            intro e
            apply hk
            rw [e]
            exact hl' (by rw [← e]; simp [Dict.keys])
          split
          · exact Dict.get?_set_ne _ _ hne
          · rfl
    · intro a ha
      rw [h2 a ha]
      have hstep : ∀ (hak : a ≠ k), (addStep label d (k, v)).get? a = d.get? a := by
        intro hak
        unfold addStep
        dsimp only
        split
        · exact Dict.get?_set_ne _ _ (Ne.symm ha)
        · split
          · exact Dict.get?_set_ne _ _ (Ne.symm hak)
          · rfl
      by_cases hak : a = k
      · subst hak
        rw [hkn]
        have hg : Dict.get? ((a, v) :: m) a = some v := by simp [Dict.get?]
        rw [hg]
        by_cases hc : a ≠ targetCount ∧ truthyAtom a = true
        · rw [if_pos hc, if_pos hc]
          dsimp only
          unfold addStep
          dsimp only
          rw [if_neg hc.1, if_pos hc.2, Dict.get?_set_self]
        · rw [if_neg hc, if_neg hc]
          unfold addStep
          dsimp only
          split
          · exact Dict.get?_set_ne _ _ (Ne.symm ha)
          · rename_i hne
            rw [if_neg (fun h => hc ⟨hne, h⟩)]
      · have hg : Dict.get? ((k, v) :: m) a = Dict.get? m a := by simp [Dict.get?, Ne.symm hak]
        rw [hg, hstep hak]

theorem truthyAtom_iff (a : Atom γ) : truthyAtom a = true ↔ a ≠ .str [] ∧ a ≠ .num 0 := by
  cases a <;> simp [truthyAtom]

/-- C74: with `extraType` every node gets the total of its key under the label and the count of each value under that value. Empty values and the
number 0 are left out. The keys in `extraKeys` are 0 where nothing was counted. All other attributes stay as they are. -/
theorem C74_extra_counts (sh : Key γ → Str) (label : Str) (extraKeys : List (Atom γ)) (nodes : Nodes γ α) (counts : Dict (Key γ) (Dict (Atom γ) Nat)) (hw : Dict.WF counts)
    (hk : (∀ k ∈ counts.keys, Text k) ∨ ∀ k ∈ counts.keys, ¬ Text k)
    (hm : ∀ p ∈ counts, Dict.WF p.2 ∧ targetCount ∈ p.2.keys ∧ ((.str label : Atom γ) ∈ p.2.keys → (.str label : Atom γ) = targetCount)) :
    List.Forall₂ (fun n n' => n'.1 = n.1 ∧
        let entry := ((counts.find? (fun p => decide (keyText sh p.1 = n.1))).map Prod.snd).getD []
        n'.2.get? (.str label) = some (.count (entry.cnt targetCount)) ∧
        ∀ a, a ≠ .str label → n'.2.get? a =
          if a ≠ targetCount ∧ (a ≠ .str [] ∧ a ≠ .num 0) ∧ a ∈ entry.keys then some (.count (entry.cnt a))
          else if a ∈ extraKeys then some (.count 0) else n.2.get? a)
      nodes (addCountsExtra sh label extraKeys nodes counts).1 := by
  simp only [← truthyAtom_iff]
  simp only [← (isStr_iff _).1, Bool.not_eq_true] at hk
  unfold addCountsExtra
  dsimp only
  rw [List.forall₂_map_right_iff, List.forall₂_same]
  intro n _
  refine ⟨rfl, ?_⟩
  rw [prepare_get sh counts hw hk]
  cases hf : counts.find? (fun p => decide (keyText sh p.1 = n.1)) with
  | none =>
    simp only [Option.map_none, Option.getD_none, addExtra]
    refine ⟨by rw [Dict.get?_set_self]; rfl, ?_⟩
    intro a ha
    rw [Dict.get?_set_ne _ _ (Ne.symm ha), Dict.get?_set_ne _ _ (Ne.symm ha), foldl_extraKeys,
      if_neg (show ¬ (a ≠ targetCount ∧ truthyAtom a = true ∧ a ∈ Dict.keys ([] : Dict (Atom γ) Nat)) by simp [Dict.keys])]
  | some p =>
    obtain ⟨w1, w2, w3⟩ := hm p (List.mem_of_find?_eq_some hf)
    simp only [Option.map_some, Option.getD_some]
    obtain ⟨g1, g2⟩ := foldl_addStep label p.2 w1 w3
      ((extraKeys.foldl (fun d k => d.set k (.count 0)) n.2).set (.str label) (.count 0) : Dict (Atom γ) (Attr α))
    have he : addExtra label extraKeys n.2 (some p.2) = p.2.foldl (addStep label)
        ((extraKeys.foldl (fun d k => d.set k (.count 0)) n.2).set (.str label) (.count 0)) := rfl
    rw [he]
    refine ⟨?_, ?_⟩
    · rw [g1]
      rw [Dict.mem_keys_iff, Option.isSome_iff_exists] at w2
      obtain ⟨v, hv⟩ := w2
      rw [Dict.cnt, hv]; rfl
    · intro a ha
      rw [g2 a ha, Dict.get?_set_ne _ _ (Ne.symm ha), foldl_extraKeys]
      by_cases hc : a ≠ targetCount ∧ truthyAtom a = true
      · rw [if_pos hc]
        cases hg : p.2.get? a with
        | none =>
          have hn : a ∉ p.2.keys := (Dict.get?_eq_none_iff p.2 a).1 hg
          rw [if_neg (show ¬ (a ≠ targetCount ∧ truthyAtom a = true ∧ a ∈ p.2.keys) from fun h => hn h.2.2)]
        | some v =>
          have hin : a ∈ p.2.keys := (Dict.mem_keys_iff p.2 a).2 (by rw [hg]; rfl)
          rw [if_pos (show a ≠ targetCount ∧ truthyAtom a = true ∧ a ∈ p.2.keys from ⟨hc.1, hc.2, hin⟩), Dict.cnt, hg]; rfl
      · rw [if_neg hc, if_neg (show ¬ (a ≠ targetCount ∧ truthyAtom a = true ∧ a ∈ p.2.keys) from fun h => hc ⟨h.1, h.2.1⟩)]

end

/-! ## Concrete cases -/

open Verif.Props.DiffusionCount (mkRec exA exB exT)

/-- Two sources, one citing the other: the local count of `X` with the year of the citing record is 2, but the table says 0. -/
theorem C74_local_zero :
    let a := mkRec "a" [("WC".toList, .list [.str "X".toList]), ("PY".toList, .atom (.num 2001))] [1, 2] []
    let b := mkRec "b" [("WC".toList, .list [.str "Y".toList]), ("PY".toList, .atom (.num 2004))] [3] [1, 2]
    pairCount id "PY".toList true (.tag "WC".toList) [a, b] [a, b] (.val (.atom (.str "X".toList))) (.num 2004) = 2 ∧
    (tagTableExtra id "PY".toList true true "WC".toList [a, b] [b]).toOption.map (fun t => (Dict.get? t sourceCol, Dict.get? t "PY".toList)) =
      some (some [.num 0, .num 0, .num 0], some [.atom targetCount, .atom (.num 2004), .atom targetCount]) := by
  decide +kernel

private def auth (r : Rec Nat) : Option Nat := some r.cites.length

example : ([exA, exB].map Rec.id).Nodup ∧ (∀ r ∈ [exA, exB], Dict.WF r.fields) ∧ TagsFree [exA, exB] := by
  refine ⟨by decide +kernel, ?_, ?_⟩
  · intro r hr
    simp only [List.mem_cons, List.not_mem_nil, or_false] at hr
    rcases hr with rfl | rfl <;> unfold Dict.WF <;> decide +kernel
  · intro r hr
    simp only [List.mem_cons, List.not_mem_nil, or_false] at hr
    rcases hr with rfl | rfl <;> decide +kernel

example : (rawTable auth true true true [exA, exB] [exT]).toOption = some [(targetCol, [.num 2, .num 1]), (authorsCol, [.num 2, .num 1]), (sourceCol, [.num 1, .num 0]),
        ("WC".toList, [.val (some (.list [.str "X".toList, .str "Y".toList])), .val (some (.list [.str "Y".toList]))]),
        ("PY".toList, [.val (some (.atom (.num 2001))), .val none])] := by decide +kernel

/-- The sources have `PY` too, so its column is too long. -/
example : (rawTableExtra auth id "PY".toList false false true [exA, exB] [exT]).toOption.map
    (fun t => ((Dict.get? t targetCol).map List.length, (Dict.get? t "PY".toList).map List.length)) = some (some 4, some 8) := by decide +kernel

example : (rawTableExtra auth id "SO".toList false true true [exA, exB] [exT]).toOption.map
    (fun t => ((Dict.get? t targetCol).map List.length, Dict.get? t "SO".toList)) = some (some 2, some [.atom targetCount, .atom targetCount]) := by decide +kernel

private def nds : Nodes Nat Nat := [("X".toList, [(.str "old".toList, .other 4)]), ("Q".toList, [])]

example : addCounts (fun _ => []) "n".toList nds [(.val (.atom (.str "X".toList)), 2)] =
    ([("X".toList, [(.str "old".toList, .other 4), (.str "n".toList, .count 2)]), ("Q".toList, [(.str "n".toList, .count 0)])],
      [(.val (.atom (.str "X".toList)), 2)]) := by decide +kernel
example : addCounts (fun _ => "X".toList) "n".toList nds [(.val (.atom (.num 3)), 2), (.val (.atom (.num 5)), 1)] =
    ([("X".toList, [(.str "old".toList, .other 4), (.str "n".toList, .count 2)]), ("Q".toList, [(.str "n".toList, .count 0)])], []) := by decide +kernel
example : (addCountsExtra (fun _ => []) "n".toList [.num 2000] nds [(.val (.atom (.str "X".toList)), [(targetCount, 5), (.num 2001, 3)])]).1 =
    [("X".toList, [(.str "old".toList, .other 4), (.num 2000, .count 0), (.str "n".toList, .count 5), (.num 2001, .count 3)]),
      ("Q".toList, [(.num 2000, .count 0), (.str "n".toList, .count 0)])] := by decide +kernel

end Verif.Props.DiffusionTables
