import Verif.Spec.Counting

set_option autoImplicit false
set_option linter.unusedSectionVars false
namespace Verif.Model.Series
open Verif.Py Verif.Spec
variable {ρ α : Type} [DecidableEq α]

theorem toList_eq_vals (v : FieldVal α) : v.toList = vals (some v) := by cases v <;> rfl

theorem allowed_iff (limitTo : Option (List α)) (v : α) : allowed limitTo v = true ↔ Permitted limitTo v := by
  unfold allowed Permitted
  cases limitTo with
  | none => simp
  | some l =>
    cases l with
    | nil => simp
    | cons x l => simp

theorem foldl_allowed (limitTo : Option (List α)) (l : List α) (d : Dict α Nat) :
    l.foldl (fun d e => if allowed limitTo e then d.incr e else d) d = (l.filter (allowed limitTo)).foldl Dict.incr d := by
  induction l generalizing d with
  | nil => rfl
  | cons x l ih =>
    rw [List.foldl_cons, ih, List.filter_cons]
    split <;> rfl

theorem countSeries_eq (field : ρ → Option (FieldVal α)) (limitTo : Option (List α)) (recs : List ρ) :
    countSeries field limitTo recs =
      ((recs.flatMap (fun r => vals (field r))).filter (allowed limitTo)).foldl Dict.incr [] := by
  unfold countSeries
  generalize ([] : Dict α Nat) = d
  induction recs generalizing d with
  | nil => rfl
  | cons r recs ih =>
    rw [List.foldl_cons, ih, List.flatMap_cons, List.filter_append, List.foldl_append]
    congr 1
    cases h : field r with
    | none => rfl
    | some v => simp only []; rw [foldl_allowed, toList_eq_vals]

theorem count_flatMap_vals (field : ρ → Option (FieldVal α)) (recs : List ρ) (v : α) :
    (recs.flatMap (fun r => vals (field r))).count v = occurrences field recs v := by
  unfold occurrences
  induction recs with
  | nil => rfl
  | cons r recs ih => simp [List.count_append, ih]

theorem mem_countSeries (field : ρ → Option (FieldVal α)) (limitTo : Option (List α)) (recs : List ρ) (v : α) (n : Nat) :
    (v, n) ∈ countSeries field limitTo recs ↔ n = occurrences field recs v ∧ 0 < n ∧ Permitted limitTo v := by
  rw [countSeries_eq]
  have hwf := Dict.WF_foldl_incr ((recs.flatMap (fun r => vals (field r))).filter (allowed limitTo))
    (Dict.WF_nil (κ := α) (ν := Nat))
  have hpos := Dict.Pos_foldl_incr ((recs.flatMap (fun r => vals (field r))).filter (allowed limitTo))
    (Dict.Pos_nil (κ := α))
  rw [← Dict.get?_eq_some_iff hwf, Dict.get?_eq_some_iff_cnt hpos, Dict.cnt_foldl_incr]
  have h0 : Dict.cnt ([] : Dict α Nat) v = 0 := rfl
  rw [h0, Nat.zero_add]
  by_cases hal : allowed limitTo v = true
  · rw [List.count_filter hal, count_flatMap_vals]
    have := (allowed_iff limitTo v).1 hal
    tauto
  · have : ((recs.flatMap (fun r => vals (field r))).filter (allowed limitTo)).count v = 0 := by
      rw [List.count_eq_zero]
      intro h; exact hal (List.mem_filter.1 h).2
    rw [this]
    have := fun h => hal ((allowed_iff limitTo v).2 h)
    constructor
    · rintro ⟨h, h2⟩; omega
    · rintro ⟨_, _, h⟩; exact absurd h this

theorem countSeries_WF (field : ρ → Option (FieldVal α)) (limitTo : Option (List α)) (recs : List ρ) :
    Dict.WF (countSeries field limitTo recs) := by
  rw [countSeries_eq]; exact Dict.WF_foldl_incr _ Dict.WF_nil

theorem rankLoop_fst (r c : Nat) (l : List (α × Nat)) :
    (rankLoop r c l).map (fun x => (x.1, x.2.1)) = l := by
  induction l generalizing r c with
  | nil => rfl
  | cons p l ih =>
    obtain ⟨v, n⟩ := p
    unfold rankLoop
    split <;> simp [ih]

theorem rankLoop_rank (r m : Nat) (l : List (α × Nat)) (hs : l.Pairwise (fun a b => b.2 ≤ a.2))
    (hm : ∀ p ∈ l, p.2 ≤ m) :
    ∀ x ∈ rankLoop r m l, x.2.2 = r + ((insert m (l.map Prod.snd).toFinset).filter (x.2.1 < ·)).card := by
  induction l generalizing r m with
  | nil => simp [rankLoop]
  | cons p l ih =>
    obtain ⟨v, n⟩ := p
    rw [List.pairwise_cons] at hs
    have hn : n ≤ m := hm (v, n) (by simp)
    have hl : ∀ p ∈ l, p.2 ≤ n := fun p hp => hs.1 p hp
    intro x hx
    unfold rankLoop at hx
    split at hx
    · rename_i hlt
      have hmem : ∀ k ∈ (insert n (l.map Prod.snd).toFinset : Finset Nat), k ≤ n := by
        intro k hk
        simp only [Finset.mem_insert, List.mem_toFinset, List.mem_map] at hk
        rcases hk with rfl | ⟨q, hq, rfl⟩
        · exact Nat.le_refl _
        · exact hl q hq
      have hmn : m ∉ (insert n (l.map Prod.snd).toFinset : Finset Nat) := fun h => by
        have := hmem m h; omega
      have key : ∀ c, c ≤ n → ((insert m ((v, n) :: l |>.map Prod.snd).toFinset).filter (c < ·)).card =
          1 + ((insert n (l.map Prod.snd).toFinset).filter (c < ·)).card := by
        intro c hc
        simp only [List.map_cons, List.toFinset_cons]
        rw [Finset.filter_insert, if_pos (by omega), Finset.card_insert_of_notMem]
        · omega
        · intro h; exact hmn (Finset.mem_filter.1 h).1
      rcases List.mem_cons.1 hx with rfl | hx
      · simp only []
        rw [key n (Nat.le_refl _)]
        have : ((insert n (l.map Prod.snd).toFinset).filter (n < ·)) = ∅ := by
          rw [Finset.filter_eq_empty_iff]
          intro k hk; have := hmem k hk; omega
        simp [this]
      · have hxn : x.2.1 ≤ n := by
          have : (x.1, x.2.1) ∈ (rankLoop (r+1) n l).map (fun x => (x.1, x.2.1)) := List.mem_map_of_mem hx
          rw [rankLoop_fst] at this
          exact hl _ this
        rw [ih (r+1) n hs.2 hl x hx, key _ hxn]; omega
    · rename_i hge
      have hmn : m = n := by omega
      subst hmn
      have heq : insert m ((v, m) :: l |>.map Prod.snd).toFinset = insert m (l.map Prod.snd).toFinset := by simp
      rw [heq]
      rcases List.mem_cons.1 hx with rfl | hx
      · have : ((insert m (l.map Prod.snd).toFinset).filter (m < ·)) = ∅ := by
          rw [Finset.filter_eq_empty_iff]
          intro k hk
          simp only [Finset.mem_insert, List.mem_toFinset, List.mem_map] at hk
          rcases hk with rfl | ⟨q, hq, rfl⟩
          · omega
          · have := hl q hq; omega
        simp [this]
      · exact ih r m hs.2 hl x hx

theorem rankAll_fst (l : List (α × Nat)) : (rankAll l).map (fun x => (x.1, x.2.1)) = l := by
  unfold rankAll
  split
  · rfl
  · exact rankLoop_fst _ _ _

theorem rankAll_rank (l : List (α × Nat)) (hs : l.Pairwise (fun a b => b.2 ≤ a.2)) :
    ∀ x ∈ rankAll l, x.2.2 = denseRank (l.map Prod.snd).toFinset x.2.1 := by
  intro x hx
  unfold rankAll at hx
  split at hx
  · simp at hx
  · rename_i v c rest
    have hall : ∀ p ∈ (v, c) :: rest, p.2 ≤ c := by
      intro p hp
      rcases List.mem_cons.1 hp with rfl | hp
      · exact Nat.le_refl _
      · exact (List.pairwise_cons.1 hs).1 p hp
    rw [rankLoop_rank 1 c _ hs hall x hx, denseRank]
    simp

theorem rankAll_eq (l : List (α × Nat)) (hs : l.Pairwise (fun a b => b.2 ≤ a.2)) :
    rankAll l = l.map (fun p => (p.1, p.2, denseRank (l.map Prod.snd).toFinset p.2)) := by
  have h1 := rankAll_fst l
  have h2 := rankAll_rank l hs
  generalize (l.map Prod.snd).toFinset = S at h2 ⊢
  generalize rankAll l = L at h1 h2 ⊢
  induction L generalizing l with
  | nil => simp at h1; subst h1; rfl
  | cons x L ih =>
    subst h1
    simp only [List.map_cons, List.map_map]
    have hx := h2 x (by simp)
    rw [← hx]
    congr 1
    have := ih _ (List.pairwise_cons.1 hs).2 rfl (fun y hy => h2 y (List.mem_cons_of_mem _ hy))
    rw [List.map_map] at this
    exact this

/-! ## Nested counters -/
section nested
variable {β γ : Type} [DecidableEq β] [DecidableEq γ]

/-- The count under two keys. -/
def cnt2 (d : Dict β (Dict γ Nat)) (k : β) (y : γ) : Nat := ((d.get? k).getD []).cnt y

structure Inv2 (d : Dict β (Dict γ Nat)) : Prop where
  wf : Dict.WF d
  inner : ∀ k i, d.get? k = some i → Dict.WF i ∧ Dict.Pos i

theorem Inv2_nil : Inv2 ([] : Dict β (Dict γ Nat)) := ⟨Dict.WF_nil, by simp⟩

theorem incr_single (y : γ) : ([(y, 1)] : Dict γ Nat) = Dict.incr [] y := rfl

theorem incr2_eq (d : Dict β (Dict γ Nat)) (k : β) (y : γ) : incr2 d k y = d.set k (((d.get? k).getD []).incr y) := by
  unfold incr2
  cases d.get? k <;> rfl

theorem cnt2_incr2 (d : Dict β (Dict γ Nat)) (k j : β) (y z : γ) :
    cnt2 (incr2 d k y) j z = cnt2 d j z + if k = j ∧ y = z then 1 else 0 := by
  rw [incr2_eq]
  unfold cnt2
  rw [Dict.get?_set]
  by_cases h : k = j
  · subst h
    simp [Dict.cnt_incr]
  · simp [h, Ne.symm h]

theorem Inv2_set {d : Dict β (Dict γ Nat)} (hd : Inv2 d) (k : β) {i : Dict γ Nat} (hi : Dict.WF i ∧ Dict.Pos i) :
    Inv2 (d.set k i) := by
  refine ⟨Dict.WF_set hd.wf _ _, ?_⟩
  intro j i' h
  rw [Dict.get?_set] at h
  split at h
  · simp at h; subst h; exact hi
  · exact hd.inner j i' h

theorem Inv2_incr2 {d : Dict β (Dict γ Nat)} (hd : Inv2 d) (k : β) (y : γ) : Inv2 (incr2 d k y) := by
  rw [incr2_eq]
  apply Inv2_set hd
  cases h : d.get? k with
  | none => exact ⟨Dict.WF_incr Dict.WF_nil y, Dict.Pos_incr Dict.Pos_nil y⟩
  | some i => have := hd.inner k i h; exact ⟨Dict.WF_incr this.1 y, Dict.Pos_incr this.2 y⟩

theorem foldl_incr2 (l : List (β × γ)) (d : Dict β (Dict γ Nat)) :
    (∀ k y, cnt2 (l.foldl (fun d p => incr2 d p.1 p.2) d) k y = cnt2 d k y + l.count (k, y)) ∧
    (Inv2 d → Inv2 (l.foldl (fun d p => incr2 d p.1 p.2) d)) ∧
    (∀ k, k ∈ Dict.keys (l.foldl (fun d p => incr2 d p.1 p.2) d) ↔ k ∈ Dict.keys d ∨ ∃ y, (k, y) ∈ l) := by
  induction l generalizing d with
  | nil => simp
  | cons p l ih =>
    obtain ⟨h1, h2, h3⟩ := ih (incr2 d p.1 p.2)
    rw [List.foldl_cons]
    refine ⟨fun k y => ?_, fun hd => h2 (Inv2_incr2 hd _ _), fun k => ?_⟩
    · rw [h1, cnt2_incr2, List.count_cons]
      have : (p == (k, y)) = decide (p.1 = k ∧ p.2 = y) := by
        rw [Bool.eq_iff_iff]; simp [Prod.ext_iff]
      rw [this]
      by_cases h : p.1 = k ∧ p.2 = y <;> simp [h]
      omega
    · rw [h3, incr2_eq, Dict.mem_keys_set]
      constructor
      · rintro ((rfl | h) | ⟨y, h⟩)
        · exact Or.inr ⟨p.2, by simp⟩
        · exact Or.inl h
        · exact Or.inr ⟨y, List.mem_cons_of_mem _ h⟩
      · rintro (h | ⟨y, h⟩)
        · exact Or.inl (Or.inr h)
        · rcases List.mem_cons.1 h with rfl | h
          · exact Or.inl (Or.inl rfl)
          · exact Or.inr ⟨y, h⟩

theorem get?_cnt2 {d : Dict β (Dict γ Nat)} (hd : Inv2 d) (k : β) (y : γ) (n : Nat) :
    (∃ i, d.get? k = some i ∧ i.get? y = some n) ↔ n = cnt2 d k y ∧ 0 < n := by
  unfold cnt2
  cases h : d.get? k with
  | none =>
    simp [Dict.cnt]
  | some i =>
    have := (hd.inner k i h).2
    simp [Dict.get?_eq_some_iff_cnt this]

end nested

end Verif.Model.Series
