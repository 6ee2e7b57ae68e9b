import Verif.Lemmas.Series

/-! # C09, C10, C11: ranked series, time series, co-occurrence counts -/
set_option autoImplicit false
set_option linter.unusedSectionVars false
namespace Verif.Props
open Verif.Py Verif.Model.Series Verif.Spec

variable {ρ α : Type} [DecidableEq α]

/-- C09: asking for both counts and ranks raises, and nothing else does. -/
theorem C09_error_iff (field : ρ → Option (FieldVal α)) (recs : List ρ) (gc gr gf pm : Bool) (lim : Option (List α)) :
    rankedSeries field recs gc gr gf pm lim = .error .mkException ↔ gc = true ∧ gr = true := by
  unfold rankedSeries
  cases gc <;> cases gr <;> cases pm <;> simp

/-- The list lists each permitted occurring value exactly once with its number of occurrences. -/
def IsCount (field : ρ → Option (FieldVal α)) (recs : List ρ) (lim : Option (List α)) (l : List (α × Nat)) : Prop :=
  (l.map Prod.fst).Nodup ∧
  ∀ v n, (v, n) ∈ l ↔ n = occurrences field recs v ∧ 0 < n ∧ Permitted lim v

/-- The set of the numbers of occurrences of the permitted occurring values. -/
def IsCountSet (field : ρ → Option (FieldVal α)) (recs : List ρ) (lim : Option (List α)) (S : Finset Nat) : Prop :=
  ∀ n, n ∈ S ↔ ∃ v, n = occurrences field recs v ∧ 0 < n ∧ Permitted lim v

theorem isCount_sorted (field : ρ → Option (FieldVal α)) (recs : List ρ) (lim : Option (List α)) (gf : Bool) :
    IsCount field recs lim (sortedBy Prod.snd gf (countSeries field lim recs)) := by
  have hp := sortedBy_perm Prod.snd gf (countSeries field lim recs)
  refine ⟨(hp.map Prod.fst).nodup_iff.2 (countSeries_WF field lim recs), fun v n => ?_⟩
  rw [hp.mem_iff, mem_countSeries]

/-- C09, counts: every permitted value that occurs is listed once with its number of occurrences, sorted by it. -/
theorem C09_counts (field : ρ → Option (FieldVal α)) (recs : List ρ) (gf : Bool) (lim : Option (List α)) :
    ∃ l, rankedSeries field recs true false gf false lim = .ok (.pairs l) ∧ IsCount field recs lim l ∧
      (gf = true → l.Pairwise (fun a b => b.2 ≤ a.2)) ∧ (gf = false → l.Pairwise (fun a b => a.2 ≤ b.2)) := by
  refine ⟨_, rfl, isCount_sorted field recs lim gf, ?_, ?_⟩
  · rintro rfl; exact sortedBy_sorted_true _ _
  · rintro rfl; exact sortedBy_sorted_false _ _

/-- C09, plain list: the same without the counts. -/
theorem C09_plain (field : ρ → Option (FieldVal α)) (recs : List ρ) (gf : Bool) (lim : Option (List α)) :
    ∃ l, rankedSeries field recs true false gf false lim = .ok (.pairs l) ∧
      rankedSeries field recs false false gf false lim = .ok (.entries (l.map Prod.fst)) := ⟨_, rfl, rfl⟩

theorem descending (field : ρ → Option (FieldVal α)) (recs : List ρ) (gf : Bool) (lim : Option (List α)) :
    (if gf then sortedBy Prod.snd gf (countSeries field lim recs)
      else (sortedBy Prod.snd gf (countSeries field lim recs)).reverse).Pairwise (fun a b => b.2 ≤ a.2) := by
  cases gf
  · simp only [Bool.false_eq_true, if_false, List.pairwise_reverse]
    exact sortedBy_sorted_false _ _
  · simp only [if_true]
    exact sortedBy_sorted_true _ _

theorem isCount_desc (field : ρ → Option (FieldVal α)) (recs : List ρ) (gf : Bool) (lim : Option (List α)) :
    IsCount field recs lim (if gf then sortedBy Prod.snd gf (countSeries field lim recs)
      else (sortedBy Prod.snd gf (countSeries field lim recs)).reverse) := by
  have h := isCount_sorted field recs lim gf
  cases gf
  · simp only [Bool.false_eq_true, if_false]
    refine ⟨by rw [List.map_reverse, List.nodup_reverse]; exact h.1, fun v n => ?_⟩
    rw [List.mem_reverse]; exact h.2 v n
  · simpa using h

theorem countSet_of_isCount {field : ρ → Option (FieldVal α)} {recs : List ρ} {lim : Option (List α)} {l : List (α × Nat)}
    (h : IsCount field recs lim l) : IsCountSet field recs lim (l.map Prod.snd).toFinset := by
  intro n
  simp only [List.mem_toFinset, List.mem_map, Prod.exists, exists_eq_right]
  constructor
  · rintro ⟨v, hv⟩; exact ⟨v, (h.2 v n).1 hv⟩
  · rintro ⟨v, hv⟩; exact ⟨v, (h.2 v n).2 hv⟩

/-- C09, ranks: every permitted value that occurs is listed once with its dense rank, the best rank first unless
`greatestFirst` is off. -/
theorem C09_ranks (field : ρ → Option (FieldVal α)) (recs : List ρ) (gf : Bool) (lim : Option (List α)) :
    ∃ l S, rankedSeries field recs false true gf false lim = .ok (.pairs l) ∧ IsCountSet field recs lim S ∧
      (l.map Prod.fst).Nodup ∧
      (∀ v r, (v, r) ∈ l ↔ 0 < occurrences field recs v ∧ Permitted lim v ∧ r = denseRank S (occurrences field recs v)) ∧
      (gf = true → l.Pairwise (fun a b => a.2 ≤ b.2)) ∧ (gf = false → l.Pairwise (fun a b => b.2 ≤ a.2)) := by
  have hd := descending field recs gf lim
  have hc := isCount_desc field recs gf lim
  have hr := rankAll_eq _ hd
  generalize hL : (if gf then sortedBy Prod.snd gf (countSeries field lim recs)
      else (sortedBy Prod.snd gf (countSeries field lim recs)).reverse) = L at hd hc hr
  have heq : rankedSeries field recs false true gf false lim =
      .ok (.pairs (if gf then (rankAll L).map (fun x => (x.1, x.2.2)) else ((rankAll L).map (fun x => (x.1, x.2.2))).reverse)) := by
    rw [← hL]; rfl
  have hmap : (rankAll L).map (fun x => (x.1, x.2.2)) =
      L.map (fun p => (p.1, denseRank (L.map Prod.snd).toFinset p.2)) := by
    rw [hr, List.map_map]; rfl
  rw [hmap] at heq
  have hmono : (L.map (fun p => (p.1, denseRank (L.map Prod.snd).toFinset p.2))).Pairwise (fun a b => a.2 ≤ b.2) := by
    rw [List.pairwise_map]
    refine hd.imp ?_
    intro a b hab
    unfold denseRank
    apply Nat.add_le_add_left
    apply Finset.card_le_card
    intro x hx
    simp only [Finset.mem_filter] at hx ⊢
    exact ⟨hx.1, by omega⟩
  have hmem : ∀ v r, (v, r) ∈ L.map (fun p => (p.1, denseRank (L.map Prod.snd).toFinset p.2)) ↔
      0 < occurrences field recs v ∧ Permitted lim v ∧ r = denseRank (L.map Prod.snd).toFinset (occurrences field recs v) := by
    intro v r
    simp only [List.mem_map, Prod.exists, Prod.mk.injEq]
    constructor
    · rintro ⟨a, b, hab, rfl, rfl⟩
      obtain ⟨h1, h2, h3⟩ := (hc.2 a b).1 hab
      subst h1; exact ⟨h2, h3, rfl⟩
    · rintro ⟨h1, h2, rfl⟩
      exact ⟨v, _, (hc.2 v _).2 ⟨rfl, h1, h2⟩, rfl, rfl⟩
  have hfst : (L.map (fun p => (p.1, denseRank (L.map Prod.snd).toFinset p.2))).map Prod.fst = L.map Prod.fst := by
    rw [List.map_map]; rfl
  refine ⟨_, (L.map Prod.snd).toFinset, heq, countSet_of_isCount hc, ?_, ?_, ?_, ?_⟩
  · cases gf
    · simp only [Bool.false_eq_true, if_false]
      rw [List.map_reverse, List.nodup_reverse, hfst]; exact hc.1
    · simp only [if_true]
      rw [hfst]; exact hc.1
  · intro v r
    rw [← hmem]
    cases gf <;> simp
  · rintro rfl; simpa using hmono
  · rintro rfl
    simp only [Bool.false_eq_true, if_false, List.pairwise_reverse]
    exact hmono

/-- C09, pandas: the three lists run in parallel over the permitted occurring values, each once, with number of
occurrences and dense rank. They are always in descending order of count: `greatestFirst = False` does not turn the
pandas form round. -/
theorem C09_pandas (field : ρ → Option (FieldVal α)) (recs : List ρ) (gc gr gf : Bool) (lim : Option (List α))
    (h : ¬ (gc = true ∧ gr = true)) :
    ∃ l S, rankedSeries field recs gc gr gf true lim =
        .ok (.pandas (l.map Prod.fst) (l.map Prod.snd) (l.map (fun p => denseRank S p.2))) ∧
      IsCount field recs lim l ∧ IsCountSet field recs lim S ∧ l.Pairwise (fun a b => b.2 ≤ a.2) := by
  have hd := descending field recs gf lim
  have hc := isCount_desc field recs gf lim
  have hr := rankAll_eq _ hd
  generalize hL : (if gf then sortedBy Prod.snd gf (countSeries field lim recs)
      else (sortedBy Prod.snd gf (countSeries field lim recs)).reverse) = L at hd hc hr
  refine ⟨L, (L.map Prod.snd).toFinset, ?_, hc, countSet_of_isCount hc, hd⟩
  have : rankedSeries field recs gc gr gf true lim =
      .ok (.pandas ((rankAll L).map (fun x => x.1)) ((rankAll L).map (fun x => x.2.1)) ((rankAll L).map (fun x => x.2.2))) := by
    subst hL
    unfold rankedSeries
    have : (gr && gc) = false := by cases gc <;> cases gr <;> simp_all
    rw [this]
    cases gc <;> cases gr <;> rfl
  rw [this, hr]
  simp only [List.map_map]
  rfl

private def f9 : Nat → Option (FieldVal String) := fun r =>
  if r = 0 then some (.list ["a", "b", "a"]) else if r = 1 then some (.single "c") else if r = 2 then none else some (.list ["b", "d"])

example : rankedSeries f9 [0, 1, 2, 3] true false true false none = .ok (.pairs [("a", 2), ("b", 2), ("c", 1), ("d", 1)]) := by
  decide
example : rankedSeries f9 [0, 1, 2, 3] false true true false none = .ok (.pairs [("a", 1), ("b", 1), ("c", 2), ("d", 2)]) := by
  decide
example : rankedSeries f9 [0, 1, 2, 3] true false false true (some ["a", "c"]) = .ok (.pandas ["a", "c"] [2, 1] [1, 2]) := by
  decide

/-! ## C10 -/

theorem countYears_eq (year : ρ → Option Nat) (field : ρ → Option (FieldVal α)) (lim : Option (List α)) (recs : List ρ) :
    countYears year field lim recs =
      ((recs.flatMap (fun r => match year r with
        | none => []
        | some y => ((vals (field r)).filter (allowed lim)).map (fun e => (e, y))))).foldl (fun d p => incr2 d p.1 p.2) [] := by
  unfold countYears
  generalize ([] : Dict α (Dict Nat Nat)) = d
  induction recs generalizing d with
  | nil => rfl
  | cons r recs ih =>
    rw [List.foldl_cons, ih, List.flatMap_cons, List.foldl_append]
    congr 1
    cases hy : year r with
    | none => rfl
    | some y =>
      cases hf : field r with
      | none => rfl
      | some v =>
        simp only [← toList_eq_vals]
        generalize v.toList = l
        clear hf ih
        induction l generalizing d with
        | nil => rfl
        | cons x l ih =>
          rw [List.foldl_cons, ih, List.filter_cons]
          split <;> rfl

theorem count_yearList (year : ρ → Option Nat) (field : ρ → Option (FieldVal α)) (lim : Option (List α)) (recs : List ρ)
    (v : α) (y : Nat) :
    (recs.flatMap (fun r => match year r with
        | none => []
        | some y => ((vals (field r)).filter (allowed lim)).map (fun e => (e, y)))).count (v, y) =
      if allowed lim v then occurrencesIn year field recs v y else 0 := by
  unfold occurrencesIn occurrences
  induction recs with
  | nil => simp
  | cons r recs ih =>
    rw [List.flatMap_cons, List.count_append, ih, List.filter_cons]
    have hcount : ∀ (l : List α) (y' : Nat), ((l.filter (allowed lim)).map (fun e => (e, y'))).count (v, y) =
        if allowed lim v ∧ y' = y then l.count v else 0 := by
      intro l y'
      by_cases hyy : y' = y
      · subst hyy
        have hinj : Function.Injective (fun e : α => (e, y')) := fun a b h => by simpa using h
        have : ((l.filter (allowed lim)).map (fun e => (e, y'))).count (v, y') = (l.filter (allowed lim)).count v :=
          List.count_map_of_injective _ _ hinj v
        rw [this]
        by_cases ha : allowed lim v = true
        · rw [List.count_filter ha]; simp [ha]
        · simp only [ha]
          rw [List.count_eq_zero.2]
          · simp
          · intro h; exact ha (List.mem_filter.1 h).2
      · simp only [hyy, and_false, if_false]
        rw [List.count_eq_zero]
        intro h
        obtain ⟨e, _, he⟩ := List.mem_map.1 h
        simp at he; exact hyy he.2
    cases hy : year r with
    | none => simp
    | some y' =>
      simp only [hcount]
      by_cases hyy : y' = y
      · subst hyy
        by_cases ha : allowed lim v = true <;> simp [ha]
      · simp [hyy]

theorem countYears_spec (year : ρ → Option Nat) (field : ρ → Option (FieldVal α)) (lim : Option (List α)) (recs : List ρ) :
    Inv2 (countYears year field lim recs) ∧
    ∀ v y, cnt2 (countYears year field lim recs) v y =
      if allowed lim v then occurrencesIn year field recs v y else 0 := by
  rw [countYears_eq]
  obtain ⟨h1, h2, _⟩ := foldl_incr2 (recs.flatMap (fun r => match year r with
        | none => []
        | some y => ((vals (field r)).filter (allowed lim)).map (fun e => (e, y)))) ([] : Dict α (Dict Nat Nat))
  refine ⟨h2 Inv2_nil, fun v y => ?_⟩
  rw [h1, count_yearList]
  simp [cnt2, Dict.cnt]

theorem mem_yearPairs {β : Type} [DecidableEq β] (gf : Bool) (d : Dict β (Dict Nat Nat)) (hd : Inv2 d) :
    (yearPairs gf d).Nodup ∧ ∀ e y, (e, y) ∈ yearPairs gf d ↔ 0 < cnt2 d e y := by
  have hp := sortedBy_perm Prod.snd gf (d.flatMap (fun e => (Dict.keys e.2).map (fun y => (e.1, y))))
  constructor
  · unfold yearPairs
    rw [hp.nodup_iff, List.nodup_flatMap]
    constructor
    · intro e he
      have := hd.inner e.1 e.2 ((Dict.get?_eq_some_iff hd.wf _ _).2 he)
      exact this.1.map (fun a b h => by simpa using h)
    · have hwf := hd.wf
      unfold Dict.WF Dict.keys at hwf
      rw [List.Nodup, List.pairwise_map] at hwf
      refine hwf.imp ?_
      intro a b hab
      intro x hx hx'
      obtain ⟨y, _, rfl⟩ := List.mem_map.1 hx
      obtain ⟨y', _, h⟩ := List.mem_map.1 hx'
      simp at h; exact hab h.1.symm
  · intro e y
    unfold yearPairs
    rw [hp.mem_iff]
    simp only [List.mem_flatMap, List.mem_map, Prod.mk.injEq]
    constructor
    · rintro ⟨⟨e', i⟩, hmem, y', hy', rfl, rfl⟩
      have hget := (Dict.get?_eq_some_iff hd.wf _ _).2 hmem
      rw [Dict.mem_keys_iff] at hy'
      obtain ⟨n, hn⟩ := Option.isSome_iff_exists.1 hy'
      have h3 := (get?_cnt2 hd e' y' n).1 ⟨i, hget, hn⟩
      exact Nat.lt_of_lt_of_eq h3.2 h3.1
    · intro h
      obtain ⟨i, h1, h2⟩ := (get?_cnt2 hd e y _).2 ⟨rfl, h⟩
      refine ⟨(e, i), (Dict.get?_eq_some_iff hd.wf _ _).1 h1, y, ?_, rfl, rfl⟩
      rw [Dict.mem_keys_iff, h2]; rfl

/-- C10, with a tag: the list of pairs holds each permitted value and year with at least one occurrence exactly once,
sorted by year; the plain list is its entries, and the pandas form adds the number of occurrences. -/
theorem C10_tag (year : ρ → Option Nat) (field : ρ → Option (FieldVal α)) (recs : List ρ) (gf : Bool)
    (lim : Option (List α)) :
    ∃ l, timeSeriesTag year field recs true gf false lim = .pairs l ∧ l.Nodup ∧
      (∀ v y, (v, y) ∈ l ↔ 0 < occurrencesIn year field recs v y ∧ Permitted lim v) ∧
      (gf = true → l.Pairwise (fun a b => b.2 ≤ a.2)) ∧ (gf = false → l.Pairwise (fun a b => a.2 ≤ b.2)) ∧
      timeSeriesTag year field recs false gf false lim = .entries (l.map Prod.fst) ∧
      ∀ gy, timeSeriesTag year field recs gy gf true lim =
        .pandas (l.map Prod.fst) (l.map (fun p => occurrencesIn year field recs p.1 p.2)) (l.map Prod.snd) := by
  obtain ⟨hinv, hcnt⟩ := countYears_spec year field lim recs
  obtain ⟨hn, hm⟩ := mem_yearPairs gf _ hinv
  have hm' : ∀ v y, (v, y) ∈ yearPairs gf (countYears year field lim recs) ↔
      0 < occurrencesIn year field recs v y ∧ Permitted lim v := by
    intro v y
    rw [hm, hcnt, ← allowed_iff]
    by_cases ha : allowed lim v = true <;> simp [ha]
  refine ⟨_, rfl, hn, hm', ?_, ?_, rfl, ?_⟩
  · rintro rfl; exact sortedBy_sorted_true _ _
  · rintro rfl; exact sortedBy_sorted_false _ _
  · intro gy
    unfold timeSeriesTag timeOut
    simp only [if_true]
    congr 1
    apply List.map_congr_left
    rintro ⟨v, y⟩ hvy
    have h1 := (hm' v y).1 hvy
    have h2 := hcnt v y
    rw [(allowed_iff lim v).2 h1.2, if_pos rfl] at h2
    exact h2

/-- C10: over any list of different years that contains every year the collection has, the yearly counts of a value add
up to its number of occurrences in the records that have a year. -/
theorem C10_total (year : ρ → Option Nat) (field : ρ → Option (FieldVal α)) (recs : List ρ) (v : α) (ys : List Nat)
    (hy : ys.Nodup) (hall : ∀ r ∈ recs, ∀ y, year r = some y → y ∈ ys) :
    (ys.map (fun y => occurrencesIn year field recs v y)).sum =
      occurrences field (recs.filter (fun r => (year r).isSome)) v := by
  unfold occurrencesIn occurrences
  induction recs with
  | nil => simp
  | cons r recs ih =>
    have ih := ih (fun r' hr' => hall r' (List.mem_cons_of_mem _ hr'))
    cases hyr : year r with
    | none =>
      have : ∀ y, (r :: recs).filter (fun r => decide (year r = some y)) = recs.filter (fun r => decide (year r = some y)) := by
        intro y; rw [List.filter_cons]; simp [hyr]
      simp only [this]
      rw [ih, List.filter_cons]; simp [hyr]
    | some y0 =>
      have hin := hall r (by simp) y0 hyr
      have : ∀ y, (((r :: recs).filter (fun r => decide (year r = some y))).map (fun r => (vals (field r)).count v)).sum =
          ((recs.filter (fun r => decide (year r = some y))).map (fun r => (vals (field r)).count v)).sum +
          if y0 = y then (vals (field r)).count v else 0 := by
        intro y; rw [List.filter_cons]
        by_cases h : y0 = y
        · simp [hyr, h]; omega
        · simp [hyr, h]
      simp only [this]
      rw [List.filter_cons]
      simp only [hyr, Option.isSome_some, if_true, List.map_cons, List.sum_cons]
      rw [← ih]
      have hsum : ∀ (ys : List Nat) (f : Nat → Nat) (c : Nat), ys.Nodup → y0 ∈ ys →
          (ys.map (fun y => f y + if y0 = y then c else 0)).sum = c + (ys.map f).sum := by
        intro ys f c
        induction ys with
        | nil => simp
        | cons a ys ih2 =>
          intro hn hmem
          rw [List.nodup_cons] at hn
          simp only [List.map_cons, List.sum_cons]
          by_cases ha : y0 = a
          · subst ha
            have : ys.map (fun y => f y + if y0 = y then c else 0) = ys.map f := by
              apply List.map_congr_left
              intro y hy
              rw [if_neg]; · rfl
              rintro rfl; exact hn.1 hy
            rw [this]; simp; omega
          · have := ih2 hn.2 (by rcases List.mem_cons.1 hmem with h | h; exact absurd h ha; exact h)
            rw [this]; simp [ha]; omega
      exact hsum ys _ _ hy hin

theorem recordYears_spec [DecidableEq ρ] (year : ρ → Option Nat) (recs : List ρ) :
    Inv2 (recordYears year recs) ∧
    ∀ r y, cnt2 (recordYears year recs) r y = if r ∈ recs ∧ year r = some y then 1 else 0 := by
  unfold recordYears
  have key : ∀ (l : List ρ) (d : Dict ρ (Dict Nat Nat)), Inv2 d →
      Inv2 (l.foldl (fun d r => match year r with | none => d | some y => d.set r [(y, 1)]) d) ∧
      ∀ r y, cnt2 (l.foldl (fun d r => match year r with | none => d | some y => d.set r [(y, 1)]) d) r y =
        if r ∈ l ∧ (year r).isSome then (if year r = some y then 1 else 0) else cnt2 d r y := by
    intro l
    induction l with
    | nil => intro d hd; simp [hd]
    | cons a l ih =>
      intro d hd
      rw [List.foldl_cons]
      cases ha : year a with
      | none =>
        obtain ⟨h1, h2⟩ := ih d hd
        refine ⟨h1, fun r y => ?_⟩
        rw [h2]
        by_cases hra : r = a
        · subst hra; simp [ha]
        · simp [hra]
      | some ya =>
        have hd' : Inv2 (d.set a [(ya, 1)]) :=
          Inv2_set hd a ⟨Dict.WF_incr Dict.WF_nil ya, Dict.Pos_incr Dict.Pos_nil ya⟩
        obtain ⟨h1, h2⟩ := ih _ hd'
        refine ⟨h1, fun r y => ?_⟩
        rw [h2]
        by_cases hra : r = a
        · subst hra
          simp only [ha, Option.isSome_some, and_true, List.mem_cons, true_or, if_true, Option.some.injEq]
          split
          · rfl
          · simp only [cnt2, Dict.get?_set_self, Option.getD_some]
            simp [Dict.cnt, Dict.get?]
            by_cases hy : ya = y <;> simp [hy]
        · have : cnt2 (d.set a [(ya, 1)]) r y = cnt2 d r y := by
            simp [cnt2, Dict.get?_set_ne _ _ (Ne.symm hra)]
          rw [this]
          simp [hra]
  obtain ⟨h1, h2⟩ := key recs [] Inv2_nil
  refine ⟨h1, fun r y => (h2 r y).trans ?_⟩
  by_cases hr : r ∈ recs
  · cases hy : year r with
    | none => simp [cnt2, Dict.cnt]
    | some z => simp [hr]
  · simp [hr, cnt2, Dict.cnt]

/-- C10, without a tag: each record that has a year appears exactly once, with its year and the count 1, sorted. -/
theorem C10_records [DecidableEq ρ] (year : ρ → Option Nat) (recs : List ρ) (gf : Bool) :
    ∃ l, timeSeriesRecords year recs true gf false = .pairs l ∧ l.Nodup ∧
      (∀ r y, (r, y) ∈ l ↔ r ∈ recs ∧ year r = some y) ∧
      (gf = true → l.Pairwise (fun a b => b.2 ≤ a.2)) ∧ (gf = false → l.Pairwise (fun a b => a.2 ≤ b.2)) ∧
      timeSeriesRecords year recs false gf false = .entries (l.map Prod.fst) ∧
      ∀ gy, timeSeriesRecords year recs gy gf true = .pandas (l.map Prod.fst) (l.map (fun _ => 1)) (l.map Prod.snd) := by
  obtain ⟨hinv, hcnt⟩ := recordYears_spec year recs
  obtain ⟨hn, hm⟩ := mem_yearPairs gf _ hinv
  have hm' : ∀ r y, (r, y) ∈ yearPairs gf (recordYears year recs) ↔ r ∈ recs ∧ year r = some y := by
    intro r y
    rw [hm, hcnt]
    split <;> simp_all
  refine ⟨_, rfl, hn, hm', ?_, ?_, rfl, ?_⟩
  · rintro rfl; exact sortedBy_sorted_true _ _
  · rintro rfl; exact sortedBy_sorted_false _ _
  · intro gy
    unfold timeSeriesRecords timeOut
    simp only [if_true]
    congr 1
    apply List.map_congr_left
    rintro ⟨r, y⟩ hvy
    have h1 := (hm' r y).1 hvy
    have h2 := hcnt r y
    rw [if_pos h1] at h2
    exact h2

private def y10 : Nat → Option Nat := fun r => if r = 2 then none else some (2000 + r % 2)

example : timeSeriesTag y10 f9 [0, 1, 2, 3] false true true none =
    .pandas ["b", "c", "d", "a", "b"] [1, 1, 1, 2, 1] [2001, 2001, 2001, 2000, 2000] := by decide
example : ([2000, 2001] : List Nat).Nodup ∧ (∀ r ∈ [0, 1, 2, 3], ∀ y, y10 r = some y → y ∈ [2000, 2001]) := by
  refine ⟨by decide, ?_⟩
  intro r hr y hy
  simp only [List.mem_cons, List.not_mem_nil, or_false] at hr
  rcases hr with rfl | rfl | rfl | rfl <;> simp_all [y10]

/-! ## C11 -/

theorem foldl_flatMap' {A B : Type} {C : Type} (f : B → C → B) (g : A → List C) (l : List A) (b : B) :
    l.foldl (fun b a => (g a).foldl f b) b = (l.flatMap g).foldl f b := by
  induction l generalizing b with
  | nil => rfl
  | cons a l ih => simp [List.foldl_append, ih]

theorem ensure_spec (ks : List α) (d : Dict α (Dict α Nat)) (hd : Inv2 d) :
    let d' := ks.foldl (fun d k => if d.has k then d else d.set k []) d
    Inv2 d' ∧ (∀ k y, cnt2 d' k y = cnt2 d k y) ∧ (∀ k, k ∈ Dict.keys d' ↔ k ∈ Dict.keys d ∨ k ∈ ks) := by
  induction ks generalizing d with
  | nil => simp [hd]
  | cons a ks ih =>
    simp only [List.foldl_cons]
    by_cases ha : d.has a = true
    · simp only [ha, if_true]
      obtain ⟨h1, h2, h3⟩ := ih d hd
      refine ⟨h1, h2, fun k => ?_⟩
      rw [h3]
      have : a ∈ Dict.keys d := (Dict.mem_keys_iff d a).2 ha
      simp only [List.mem_cons]
      constructor
      · tauto
      · rintro (h | rfl | h) <;> tauto
    · simp only [ha, if_false, Bool.false_eq_true]
      have hd' : Inv2 (d.set a ([] : Dict α Nat)) := Inv2_set hd a ⟨Dict.WF_nil, Dict.Pos_nil⟩
      obtain ⟨h1, h2, h3⟩ := ih _ hd'
      refine ⟨h1, fun k y => ?_, fun k => ?_⟩
      · rw [show cnt2 _ k y = _ from h2 k y]
        unfold cnt2
        rw [Dict.get?_set]
        by_cases hk : k = a
        · subst hk
          have : d.get? k = none := by simpa [Dict.has] using ha
          simp [this]
        · rw [if_neg (Ne.symm hk)]
      · rw [h3, Dict.mem_keys_set]
        simp only [List.mem_cons]
        tauto

theorem coocRecord_eq {τ : Type} (field : ρ → τ → Option (FieldVal α)) (keyTag : τ) (tags : List τ)
    (d : Dict α (Dict α Nat)) (r : ρ) :
    coocRecord field keyTag tags d r =
      (tags.flatMap (fun t => (vals (field r t)).flatMap (fun v => (vals (field r keyTag)).map (fun k => (k, v))))).foldl
        (fun d p => incr2 d p.1 p.2) ((vals (field r keyTag)).foldl (fun d k => if d.has k then d else d.set k []) d) := by
  unfold coocRecord
  cases hk : field r keyTag with
  | none =>
    have : (tags.flatMap (fun t => (vals (field r t)).flatMap (fun v => (vals (none : Option (FieldVal α))).map (fun k => (k, v))))) = [] := by
      simp [vals]
    rw [this]; rfl
  | some kv =>
    simp only [toList_eq_vals]
    rw [← foldl_flatMap']
    congr 1
    funext d t
    rw [← foldl_flatMap']
    cases ht : field r t with
    | none => rfl
    | some tv =>
      simp only [toList_eq_vals]
      congr 1
      funext d v
      rw [List.foldl_map]

theorem count_pairs (ks vs : List α) (k v : α) :
    (vs.flatMap (fun v => ks.map (fun k => (k, v)))).count (k, v) = ks.count k * vs.count v := by
  induction vs with
  | nil => simp
  | cons x vs ih =>
    rw [List.flatMap_cons, List.count_append, ih, List.count_cons]
    by_cases hx : x = v
    · subst hx
      have hinj : Function.Injective (fun k : α => (k, x)) := fun a b h => by simpa using h
      have : (ks.map (fun k => (k, x))).count (k, x) = ks.count k := List.count_map_of_injective _ _ hinj k
      rw [this]; simp [Nat.mul_add, Nat.add_comm]
    · have : (ks.map (fun k => (k, x))).count (k, v) = 0 := by
        rw [List.count_eq_zero]; intro h
        obtain ⟨e, _, he⟩ := List.mem_map.1 h
        simp at he; exact hx he.2
      rw [this]; simp [hx]

theorem cooc_spec {τ : Type} (field : ρ → τ → Option (FieldVal α)) (recs : List ρ) (keyTag : τ) (tags : List τ)
    (d : Dict α (Dict α Nat)) (hd : Inv2 d) :
    let d' := recs.foldl (coocRecord field keyTag tags) d
    Inv2 d' ∧ (∀ k v, cnt2 d' k v = cnt2 d k v + cooccurrences field recs keyTag tags k v) ∧
    (∀ k, k ∈ Dict.keys d' ↔ k ∈ Dict.keys d ∨ ∃ r ∈ recs, k ∈ vals (field r keyTag)) := by
  induction recs generalizing d with
  | nil => simp [hd, cooccurrences]
  | cons r recs ih =>
    simp only [List.foldl_cons]
    have hr := coocRecord_eq field keyTag tags d r
    obtain ⟨e1, e2, e3⟩ := ensure_spec (vals (field r keyTag)) d hd
    obtain ⟨f1, f2, f3⟩ := foldl_incr2 (tags.flatMap (fun t => (vals (field r t)).flatMap
      (fun v => (vals (field r keyTag)).map (fun k => (k, v)))))
      ((vals (field r keyTag)).foldl (fun d k => if d.has k then d else d.set k []) d)
    rw [← hr] at f1 f2 f3
    obtain ⟨i1, i2, i3⟩ := ih _ (f2 e1)
    refine ⟨i1, fun k v => ?_, fun k => ?_⟩
    · rw [i2, f1, e2]
      have : (tags.flatMap (fun t => (vals (field r t)).flatMap (fun v => (vals (field r keyTag)).map (fun k => (k, v))))).count (k, v)
          = (vals (field r keyTag)).count k * (tags.map (fun t => (vals (field r t)).count v)).sum := by
        clear ih hr f1 f2 f3 i1 i2 i3
        induction tags with
        | nil => simp
        | cons t tags iht =>
          rw [List.flatMap_cons, List.count_append, iht, count_pairs, List.map_cons, List.sum_cons, Nat.mul_add]
      rw [this]
      simp [cooccurrences, Nat.add_assoc]
    · rw [i3, f3, e3]
      simp only [List.mem_cons, exists_eq_or_imp]
      constructor
      · rintro (((h | h) | ⟨y, h⟩) | h)
        · exact Or.inl h
        · exact Or.inr (Or.inl h)
        · simp only [List.mem_flatMap, List.mem_map, Prod.mk.injEq] at h
          obtain ⟨_, _, _, _, k', hk', rfl, _⟩ := h
          exact Or.inr (Or.inl hk')
        · exact Or.inr (Or.inr h)
      · rintro (h | h | h)
        · exact Or.inl (Or.inl (Or.inl h))
        · exact Or.inl (Or.inl (Or.inr h))
        · exact Or.inr h

/-- C11: the keys of the result are exactly the values of the key tag, each once, and under a key exactly the values that
occur with it at least once are listed, each once, with the number of co-occurrences. -/
theorem C11_cooccurrence {τ : Type} (field : ρ → τ → Option (FieldVal α)) (recs : List ρ) (keyTag : τ) (tags : List τ) :
    let d := cooccurrenceCounts field recs keyTag tags
    Dict.WF d ∧ (∀ k, k ∈ Dict.keys d ↔ ∃ r ∈ recs, k ∈ vals (field r keyTag)) ∧
    (∀ k inner, d.get? k = some inner → Dict.WF inner ∧
      ∀ v n, inner.get? v = some n ↔ n = cooccurrences field recs keyTag tags k v ∧ 0 < n) := by
  obtain ⟨h1, h2, h3⟩ := cooc_spec field recs keyTag tags [] Inv2_nil
  refine ⟨h1.wf, fun k => ?_, fun k inner hk => ⟨(h1.inner k inner hk).1, fun v n => ?_⟩⟩
  · rw [cooccurrenceCounts, h3]; simp [Dict.keys]
  · rw [Dict.get?_eq_some_iff_cnt (h1.inner k inner hk).2]
    have := h2 k v
    simp only [cnt2] at this
    rw [cooccurrenceCounts] at hk
    rw [hk] at this
    simp only [Option.getD_some] at this
    rw [this]
    simp [Dict.cnt]

private def f11 : Nat → Bool → Option (FieldVal String) := fun r t =>
  if t then f9 r else if r = 1 then none else some (.list ["x", "a"])

example : cooccurrenceCounts f11 [0, 1, 2, 3] true [false] =
    [("a", [("x", 2), ("a", 2)]), ("b", [("x", 2), ("a", 2)]), ("c", []), ("d", [("x", 1), ("a", 1)])] := by decide

end Verif.Props
