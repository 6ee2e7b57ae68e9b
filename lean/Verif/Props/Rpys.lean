import Verif.Model.Rpys

/-! # C25: `RecordCollection.rpys` -/
set_option autoImplicit false
set_option linter.unusedSectionVars false
set_option linter.unusedSimpArgs false
namespace Verif.Props
open Verif.Py Verif.Model.Rpys

/-! ## Specification -/

/-- The number of citations of the year `y` by a record: none when the record is from before `y + 2`. -/
def citesOfYear (r : Rec) (y : Int) : Nat :=
  match r.citations with
  | none => 0
  | some cs => if (∃ ry, r.year = some ry ∧ ry < y + 2) then 0 else cs.count (some y)

/-- The number of citations of the year `y` by the records. -/
def timesCited (recs : List Rec) (y : Int) : Nat := (recs.map (fun r => citesOfYear r y)).sum

/-- `m` is the median of the five numbers of `l`: it is one of them, at most two are smaller and at most two are larger. -/
def IsMedian (l : List Nat) (m : Nat) : Prop := m ∈ l ∧ l.countP (· < m) ≤ 2 ∧ l.countP (m < ·) ≤ 2

/-- The years a search with these bounds looks at: cited, and at most two years outside the given bounds. -/
def Considered (minYear maxYear : Option Int) (recs : List Rec) (y : Int) : Prop :=
  0 < timesCited recs y ∧ (∀ m, minYear = some m → m - 2 ≤ y) ∧ ∀ M, maxYear = some M → y ≤ M + 2

/-- The first year of the table: the given bound, or the first considered year. -/
def FirstYear (minYear maxYear : Option Int) (recs : List Rec) (lo : Int) : Prop :=
  minYear = some lo ∨ (minYear = none ∧ Considered minYear maxYear recs lo ∧ ∀ y, Considered minYear maxYear recs y → lo ≤ y)

/-- The last year of the table: the given bound, or the last considered year. -/
def LastYear (minYear maxYear : Option Int) (recs : List Rec) (hi : Int) : Prop :=
  maxYear = some hi ∨ (maxYear = none ∧ Considered minYear maxYear recs hi ∧ ∀ y, Considered minYear maxYear recs y → y ≤ hi)

/-- The years to leave out. -/
def Dropped : DropYears → Int → Prop
  | .none, _ => False
  | .one z, y => y = z
  | .many l, y => y ∈ l

/-! ## Counting -/

/-- The given bounds let the year through. -/
def Inside (minYear maxYear : Option Int) (y : Int) : Prop := (∀ m, minYear = some m → m - 2 ≤ y) ∧ ∀ M, maxYear = some M → y ≤ M + 2

theorem passes_iff (minYear maxYear recYear : Option Int) (y : Int) :
    passes minYear maxYear recYear y = true ↔ Inside minYear maxYear y ∧ ¬ ∃ ry, recYear = some ry ∧ ry < y + 2 := by
  unfold passes Inside
  cases minYear <;> cases maxYear <;> cases recYear <;> simp <;> omega

theorem countCites_spec (minYear maxYear recYear : Option Int) (d : Dict Int Nat) (cs : List (Option Int)) (y : Int) :
    (countCites minYear maxYear recYear d cs).cnt y = d.cnt y + if passes minYear maxYear recYear y then cs.count (some y) else 0 := by
  induction cs generalizing d with
  | nil => simp [countCites]
  | cons c cs ih =>
    cases c with
    | none => simp [countCites, ih]
    | some c =>
      unfold countCites
      rw [List.count_cons]
      by_cases hp : passes minYear maxYear recYear c = true
      · rw [if_pos hp, ih, Dict.cnt_incr]
        by_cases hc : c = y
        · subst hc; simp [hp]; omega
        · simp [hc]
      · rw [if_neg hp, ih]
        by_cases hc : c = y
        · subst hc; simp [hp]
        · simp [hc]

theorem countCites_inv (minYear maxYear recYear : Option Int) (d : Dict Int Nat) (cs : List (Option Int)) (hp : d.Pos) (hw : d.WF) :
    (countCites minYear maxYear recYear d cs).Pos ∧ (countCites minYear maxYear recYear d cs).WF := by
  induction cs generalizing d with
  | nil => exact ⟨hp, hw⟩
  | cons c cs ih =>
    cases c with
    | none => exact ih d hp hw
    | some c =>
      unfold countCites
      split
      · exact ih _ (Dict.Pos_incr hp c) (Dict.WF_incr hw c)
      · exact ih _ hp hw

theorem rpysYears_spec (minYear maxYear : Option Int) (d : Dict Int Nat) (recs : List Rec) (y : Int) :
    (Inside minYear maxYear y → (countYears minYear maxYear d recs).cnt y = d.cnt y + timesCited recs y) ∧
    (¬ Inside minYear maxYear y → (countYears minYear maxYear d recs).cnt y = d.cnt y) := by
  induction recs generalizing d with
  | nil => simp [countYears, timesCited]
  | cons r recs ih =>
    unfold countYears
    cases hc : r.citations with
    | none =>
      have : timesCited (r :: recs) y = timesCited recs y := by simp [timesCited, citesOfYear, hc]
      rw [this]
      exact ih d
    | some cs =>
      simp only []
      have h1 := ih (countCites minYear maxYear r.year d cs)
      rw [countCites_spec] at h1
      constructor
      · intro hi
        rw [h1.1 hi]
        have : timesCited (r :: recs) y = citesOfYear r y + timesCited recs y := by simp [timesCited]
        rw [this, citesOfYear, hc]
        simp only []
        by_cases hr : ∃ ry, r.year = some ry ∧ ry < y + 2
        · have : ¬ passes minYear maxYear r.year y = true := by rw [passes_iff]; exact fun h => h.2 hr
          rw [if_pos hr, if_neg this]; omega
        · have : passes minYear maxYear r.year y = true := by rw [passes_iff]; exact ⟨hi, hr⟩
          rw [if_neg hr, if_pos this]; omega
      · intro hi
        rw [h1.2 hi]
        have : ¬ passes minYear maxYear r.year y = true := by rw [passes_iff]; exact fun h => hi h.1
        rw [if_neg this]; omega

theorem countYears_inv (minYear maxYear : Option Int) (d : Dict Int Nat) (recs : List Rec) (hp : d.Pos) (hw : d.WF) :
    (countYears minYear maxYear d recs).Pos ∧ (countYears minYear maxYear d recs).WF := by
  induction recs generalizing d with
  | nil => exact ⟨hp, hw⟩
  | cons r recs ih =>
    unfold countYears
    cases hc : r.citations with
    | none => exact ih d hp hw
    | some cs =>
      have := countCites_inv minYear maxYear r.year d cs hp hw
      exact ih _ this.1 this.2

theorem counted_iff (minYear maxYear : Option Int) (recs : List Rec) (y : Int) :
    y ∈ (countYears minYear maxYear [] recs).keys ↔ Considered minYear maxYear recs y := by
  have hp := (countYears_inv minYear maxYear [] recs Dict.Pos_nil Dict.WF_nil).1
  have hs := rpysYears_spec minYear maxYear [] recs y
  have h0 : Dict.cnt ([] : Dict Int Nat) y = 0 := rfl
  rw [h0] at hs
  have hk : y ∈ (countYears minYear maxYear [] recs).keys ↔ 0 < (countYears minYear maxYear [] recs).cnt y := by
    rw [Dict.mem_keys_iff]
    cases hg : (countYears minYear maxYear [] recs).get? y with
    | none => simp [Dict.cnt, hg]
    | some n => simpa [Dict.cnt, hg] using hp y n hg
  rw [hk]
  unfold Considered
  change _ ↔ _ ∧ Inside minYear maxYear y
  by_cases hi : Inside minYear maxYear y
  · rw [hs.1 hi]; simp [hi]
  · rw [hs.2 hi]; simp [hi]

theorem minOf_spec (x : Int) (l : List Int) : minOf x l ∈ x :: l ∧ ∀ y ∈ x :: l, minOf x l ≤ y := by
  induction l generalizing x with
  | nil => simp [minOf]
  | cons b l ih =>
    have h := ih (if b < x then b else x)
    have hm : minOf x (b :: l) = minOf (if b < x then b else x) l := rfl
    rw [hm]
    by_cases hb : b < x
    · rw [if_pos hb] at h ⊢
      refine ⟨by simp only [List.mem_cons] at h ⊢; tauto, ?_⟩
      have hb' := h.2 b (by simp)
      intro y hy
      rcases List.mem_cons.1 hy with rfl | hy
      · omega
      · exact h.2 y hy
    · rw [if_neg hb] at h ⊢
      refine ⟨by simp only [List.mem_cons] at h ⊢; tauto, ?_⟩
      have hb' := h.2 x (by simp)
      intro y hy
      rcases List.mem_cons.1 hy with rfl | hy
      · exact hb'
      · rcases List.mem_cons.1 hy with rfl | hy
        · omega
        · exact h.2 y (by simp [hy])

theorem maxOf_spec (x : Int) (l : List Int) : maxOf x l ∈ x :: l ∧ ∀ y ∈ x :: l, y ≤ maxOf x l := by
  induction l generalizing x with
  | nil => simp [maxOf]
  | cons b l ih =>
    have h := ih (if b > x then b else x)
    have hm : maxOf x (b :: l) = maxOf (if b > x then b else x) l := rfl
    rw [hm]
    by_cases hb : b > x
    · rw [if_pos hb] at h ⊢
      refine ⟨by simp only [List.mem_cons] at h ⊢; tauto, ?_⟩
      have hb' := h.2 b (by simp)
      intro y hy
      rcases List.mem_cons.1 hy with rfl | hy
      · omega
      · exact h.2 y hy
    · rw [if_neg hb] at h ⊢
      refine ⟨by simp only [List.mem_cons] at h ⊢; tauto, ?_⟩
      have hb' := h.2 x (by simp)
      intro y hy
      rcases List.mem_cons.1 hy with rfl | hy
      · exact hb'
      · rcases List.mem_cons.1 hy with rfl | hy
        · omega
        · exact h.2 y (by simp [hy])

theorem mem_rangeI (lo hi y : Int) : y ∈ rangeI lo hi ↔ lo ≤ y ∧ y < hi := by
  unfold rangeI
  simp only [List.mem_map, List.mem_range]
  constructor
  · rintro ⟨i, hi, rfl⟩; omega
  · intro h; exact ⟨(y - lo).toNat, by omega, by omega⟩

theorem nodup_rangeI (lo hi : Int) : (rangeI lo hi).Nodup := by
  unfold rangeI
  exact List.Nodup.map (fun a b h => by simp at h; omega) List.nodup_range

/-! ## The bounds -/

theorem resolveMin_first (minYear maxYear : Option Int) (recs : List Rec) (lo : Int) (h : FirstYear minYear maxYear recs lo) :
    resolveMin minYear (countYears minYear maxYear [] recs).keys =
      .ok (if minYear = none ∧ lo ≤ 1000 then none else some lo) := by
  rcases h with h | ⟨h, hc, hl⟩
  · simp [resolveMin, h]
  · have hmem := (counted_iff minYear maxYear recs lo).2 hc
    have hle : ∀ y ∈ (countYears minYear maxYear [] recs).keys, lo ≤ y := fun y hy => hl y ((counted_iff _ _ _ _).1 hy)
    generalize (countYears minYear maxYear [] recs).keys = ks at hmem hle
    subst h
    cases ks with
    | nil => simp at hmem
    | cons k ks =>
      have hs := minOf_spec k ks
      have he : minOf k ks = lo := by
        have h1 := hs.2 lo hmem
        have h2 := hle _ hs.1
        omega
      unfold resolveMin
      simp only [he, true_and]
      by_cases h1 : lo ≤ 1000
      · rw [if_pos h1, if_neg (by omega)]
      · rw [if_neg h1, if_pos (by omega)]

theorem resolveMax_last (minYear maxYear : Option Int) (recs : List Rec) (hi : Int) (h : LastYear minYear maxYear recs hi) :
    resolveMax maxYear (countYears minYear maxYear [] recs).keys =
      .ok (if maxYear = none ∧ 2100 ≤ hi then none else some hi) := by
  rcases h with h | ⟨h, hc, hl⟩
  · simp [resolveMax, h]
  · have hmem := (counted_iff minYear maxYear recs hi).2 hc
    have hle : ∀ y ∈ (countYears minYear maxYear [] recs).keys, y ≤ hi := fun y hy => hl y ((counted_iff _ _ _ _).1 hy)
    generalize (countYears minYear maxYear [] recs).keys = ks at hmem hle
    subst h
    cases ks with
    | nil => simp at hmem
    | cons k ks =>
      have hs := maxOf_spec k ks
      have he : maxOf k ks = hi := by
        have h1 := hs.2 hi hmem
        have h2 := hle _ hs.1
        omega
      unfold resolveMax
      simp only [he, true_and]
      by_cases h1 : 2100 ≤ hi
      · rw [if_pos h1, if_neg (by omega)]
      · rw [if_neg h1, if_pos (by omega)]

/-! ## Median and ranks -/

theorem countP_le_of_sorted (l : List Nat) (hl : l.Pairwise (· ≤ ·)) (i : Nat) (hi : i < l.length) :
    l.countP (· < l[i]) ≤ i ∧ l.countP (l[i] < ·) ≤ l.length - 1 - i := by
  have hle : ∀ a b (ha : a < l.length) (hb : b < l.length), a ≤ b → l[a] ≤ l[b] := by
    intro a b ha hb hab
    rcases Nat.lt_or_eq_of_le hab with h | h
    · exact List.pairwise_iff_getElem.1 hl a b ha hb h
    · subst h; exact Nat.le_refl _
  have hsplit : l = l.take i ++ l[i] :: l.drop (i + 1) := by simp
  generalize hx : l[i] = x at *
  constructor
  · rw [hsplit, List.countP_append, List.countP_cons]
    have h1 : (l.take i).countP (· < x) ≤ i := le_trans List.countP_le_length (by simp)
    have h2 : (l.drop (i + 1)).countP (· < x) = 0 := by
      rw [List.countP_eq_zero]
      intro y hy
      obtain ⟨j, hj, rfl⟩ := List.mem_iff_getElem.1 hy
      rw [List.getElem_drop]
      have := hle i (i + 1 + j) hi (by simp at hj; omega) (by omega)
      simp; omega
    simp [h2]; omega
  · rw [hsplit, List.countP_append, List.countP_cons]
    have h1 : (l.drop (i + 1)).countP (x < ·) ≤ l.length - 1 - i := le_trans List.countP_le_length (by simp; omega)
    have h2 : (l.take i).countP (x < ·) = 0 := by
      rw [List.countP_eq_zero]
      intro y hy
      obtain ⟨j, hj, rfl⟩ := List.mem_iff_getElem.1 hy
      rw [List.getElem_take]
      have := hle j i (by simp at hj; omega) hi (by simp at hj; omega)
      simp; omega
    have h3 : (l.take i ++ x :: l.drop (i + 1)).length = l.length := by rw [← hsplit]
    rw [h3]
    simp [h2]; omega

theorem deviation_median (y : Int) (v : Nat) (d : Dict Int Nat) : ∃ m, IsMedian (window d y v) m ∧ deviation y v d = (v : Int) - m := by
  refine ⟨_, ?_, rfl⟩
  have hlen : ((window d y v).insertionSort (· ≤ ·)).length = 5 := by rw [List.length_insertionSort]; simp [window]
  have hp : ((window d y v).insertionSort (· ≤ ·)).Perm (window d y v) := List.perm_insertionSort _ _
  have hs := countP_le_of_sorted ((window d y v).insertionSort (· ≤ ·)) (List.pairwise_insertionSort (· ≤ ·) _) 2 (by omega)
  refine ⟨hp.mem_iff.1 (List.getElem_mem _), ?_, ?_⟩
  · rw [← hp.countP_eq]; exact hs.1
  · rw [← hp.countP_eq]; exact le_trans hs.2 (by omega)

theorem IsMedian_unique (l : List Nat) (hl : l.length = 5) (m m' : Nat) (h : IsMedian l m) (h' : IsMedian l m') : m = m' := by
  have key : ∀ a b, IsMedian l a → IsMedian l b → ¬ a < b := by
    intro a b ha hb hab
    have h1 : l.countP (· < b) + l.countP (fun x => ¬ x < b) = l.length := by
      rw [List.length_eq_countP_add_countP (p := fun x => decide (x < b))]; simp
    have h2 : l.countP (fun x => ¬ x < b) ≤ l.countP (a < ·) := List.countP_mono_left (fun x _ hx => by simp at hx ⊢; omega)
    have := ha.2.2; have := hb.2.1
    omega
  have := key m m' h h'; have := key m' m h' h
  omega

theorem ranks_spec (years : List Int) (f : Int → Int) (hn : years.Nodup) :
    ∃ rk : Int → Nat, (∀ y ∈ years, (ranks (years.map (fun y => (y, f y)))).get? y = some (rk y)) ∧
      (years.map rk).Perm (List.range' 1 years.length) ∧ ∀ y ∈ years, ∀ z ∈ years, f y < f z → rk y < rk z := by
  set s := (years.map (fun y => (y, f y))).insertionSort (fun a b => a.2 ≤ b.2) with hs
  have hperm : s.Perm (years.map (fun y => (y, f y))) := List.perm_insertionSort _ _
  have hsorted : s.Pairwise (fun a b => a.2 ≤ b.2) :=
    @List.pairwise_insertionSort _ (fun a b : Int × Int => a.2 ≤ b.2) _ ⟨fun a b => by omega⟩ ⟨fun a b c h1 h2 => by omega⟩ _
  have hkeys : (s.map Prod.fst).Perm years := by
    have := hperm.map Prod.fst
    simpa [Function.comp_def] using this
  have hsnd : (s.map Prod.fst).Nodup := hkeys.nodup_iff.2 hn
  have hlen : s.length = years.length := by rw [hperm.length_eq]; simp
  have hfun : ∀ p ∈ s, p.2 = f p.1 := by
    intro p hp
    obtain ⟨y, _, rfl⟩ := List.mem_map.1 (hperm.mem_iff.1 hp)
    rfl
  have hr : ranks (years.map (fun y => (y, f y))) = (s.zipIdx 1).map (fun p => (p.1.1, p.2)) := rfl
  have hrk : (ranks (years.map (fun y => (y, f y)))).keys = s.map Prod.fst := by
    rw [hr]
    apply List.ext_getElem
    · simp [Dict.keys]
    · intro i h1 h2; simp [Dict.keys]
  have hrw : (ranks (years.map (fun y => (y, f y)))).WF := by unfold Dict.WF; rw [hrk]; exact hsnd
  have hat : ∀ i (h : i < s.length), (ranks (years.map (fun y => (y, f y)))).get? s[i].1 = some (i + 1) := by
    intro i h
    apply Dict.get?_of_mem hrw
    rw [hr]
    refine List.mem_map.2 ⟨(s[i], i + 1), ?_, rfl⟩
    rw [List.mem_iff_getElem]
    exact ⟨i, by simpa using h, by simp [Nat.add_comm]⟩
  have hex : ∀ y ∈ years, ∃ i, ∃ h : i < s.length, s[i].1 = y := by
    intro y hy
    have := hkeys.mem_iff.2 hy
    obtain ⟨p, hp, rfl⟩ := List.mem_map.1 this
    obtain ⟨i, hi, h⟩ := List.mem_iff_getElem.1 hp
    exact ⟨i, hi, by rw [h]⟩
  refine ⟨fun y => ((ranks (years.map (fun y => (y, f y)))).get? y).getD 0, ?_, ?_, ?_⟩
  · intro y hy
    obtain ⟨i, hi, rfl⟩ := hex y hy
    simp only [hat i hi, Option.getD_some]
  · refine (hkeys.symm.map _).trans ?_
    rw [List.map_map]
    refine List.Perm.of_eq ?_
    apply List.ext_getElem
    · simp [hlen]
    · intro i h1 h2
      simp only [List.getElem_map, Function.comp_apply, List.getElem_range']
      rw [hat i (by simpa using h1)]
      simp; omega
  · intro y hy z hz hlt
    obtain ⟨i, hi, rfl⟩ := hex y hy
    obtain ⟨j, hj, rfl⟩ := hex z hz
    simp only [hat i hi, hat j hj, Option.getD_some]
    by_contra hc
    have hji : j ≤ i := by omega
    have h1 := hfun s[i] (List.getElem_mem _)
    have h2 := hfun s[j] (List.getElem_mem _)
    rcases Nat.lt_or_eq_of_le hji with h | h
    · have := List.pairwise_iff_getElem.1 hsorted j i hj hi h
      omega
    · subst h; omega

theorem fill_spec (d : Dict Int Nat) (devs : Dict Int Int) (rks : Dict Int Nat) (re : Bool) (t : Table) (l : List Int)
    (f : Int → Int) (rk : Int → Nat) (hf : ∀ y ∈ l, devs.get? y = some (f y)) (hr : ∀ y ∈ l, rks.get? y = some (rk y)) :
    fill d devs rks re t l = .ok ⟨t.year ++ l, t.count ++ l.map d.cnt, t.dev ++ l.map f,
      t.rank ++ l.map (fun y => if d.cnt y = 0 ∧ re = false then 0 else rk y)⟩ := by
  induction l generalizing t with
  | nil => simp [fill]
  | cons y l ih =>
    unfold fill
    simp only [hf y (by simp), hr y (by simp)]
    by_cases hc : d.cnt y = 0 ∧ re = false
    · simp only [if_pos hc]
      rw [ih _ (fun z hz => hf z (by simp [hz])) (fun z hz => hr z (by simp [hz]))]
      simp [hc.1, hc.2]
    · simp only [if_neg hc]
      rw [ih _ (fun z hz => hf z (by simp [hz])) (fun z hz => hr z (by simp [hz]))]
      simp [hc]

/-! ## The property -/

/-- The five years around `y`. -/
def around (y : Int) : List Int := [y - 2, y - 1, y, y + 1, y + 2]

/-- **C25.** The table has each year from the first to the last, without the dropped ones, exactly once; the count of a year is the number
of citations to it from records published at least two years later (or with no year); the deviation is the count minus the median of
the counts of the five years around it; the ranks of all listed years are the numbers from 1, larger for larger deviations, and a year that
is never cited has rank 0 unless `rankEmptyYears`. Whatever order the set of years is iterated in. -/
theorem C25_table (order : List Int → List Int) (ho : ∀ l, (order l).Perm l) (minYear maxYear : Option Int) (drop : DropYears)
    (rankEmpty : Bool) (recs : List Rec) (lo hi : Int) (hlo : FirstYear minYear maxYear recs lo) (hhi : LastYear minYear maxYear recs hi)
    (hlo' : minYear = none → 1000 < lo) (hhi' : maxYear = none → hi < 2100) (hdrop : ∀ y, drop ≠ .one y) :
    ∃ t, rpys order minYear maxYear drop rankEmpty recs = .ok t ∧
      t.year.Nodup ∧ (∀ y, y ∈ t.year ↔ (lo ≤ y ∧ y ≤ hi) ∧ ¬ Dropped drop y) ∧
      t.count = t.year.map (timesCited recs) ∧
      (∃ dev : Int → Int, t.dev = t.year.map dev ∧
        (∀ y ∈ t.year, ∃ m, IsMedian ((around y).map (timesCited recs)) m ∧ dev y = (timesCited recs y : Int) - m) ∧
        ∃ rank : Int → Nat, t.rank = t.year.map (fun y => if timesCited recs y = 0 ∧ rankEmpty = false then 0 else rank y) ∧
          (t.year.map rank).Perm (List.range' 1 t.year.length) ∧
          ∀ y ∈ t.year, ∀ z ∈ t.year, dev y < dev z → rank y < rank z) := by
  have h1 := resolveMin_first minYear maxYear recs lo hlo
  have h2 := resolveMax_last minYear maxYear recs hi hhi
  rw [if_neg (by rintro ⟨ha, hb⟩; have := hlo' ha; omega)] at h1
  rw [if_neg (by rintro ⟨ha, hb⟩; have := hhi' ha; omega)] at h2
  have h3 : ∃ ts, targets (some lo) (some hi) drop = .ok ts ∧ ts.Nodup ∧ ∀ y, y ∈ ts ↔ (lo ≤ y ∧ y ≤ hi) ∧ ¬ Dropped drop y := by
    cases drop with
    | none => exact ⟨_, rfl, nodup_rangeI _ _, fun y => by rw [mem_rangeI]; simp [Dropped]; omega⟩
    | one y => exact absurd rfl (hdrop y)
    | many l => exact ⟨_, rfl, (nodup_rangeI _ _).filter _, fun y => by
        rw [List.mem_filter, mem_rangeI]; simp [Dropped]; intro _; omega⟩
  obtain ⟨ts, h3, hnd, hmem⟩ := h3
  have hyn : (order ts).Nodup := (ho ts).nodup_iff.2 hnd
  have hym : ∀ y, y ∈ order ts ↔ (lo ≤ y ∧ y ≤ hi) ∧ ¬ Dropped drop y := fun y => by rw [(ho ts).mem_iff, hmem]
  generalize hd : countYears minYear maxYear [] recs = d at h1 h2
  have hcnt : ∀ y, lo - 2 ≤ y → y ≤ hi + 2 → d.cnt y = timesCited recs y := by
    intro y ha hb
    have := (rpysYears_spec minYear maxYear [] recs y).1 ⟨?_, ?_⟩
    · rw [← hd, this]; simp [Dict.cnt]
    · intro m hm
      rcases hlo with h | h
      · rw [h] at hm; simp at hm; omega
      · rw [h.1] at hm; cases hm
    · intro m hm
      rcases hhi with h | h
      · rw [h] at hm; simp at hm; omega
      · rw [h.1] at hm; cases hm
  obtain ⟨rk, hr1, hr2, hr3⟩ := ranks_spec (order ts) (fun y => deviation y (d.cnt y) d) hyn
  have hdv : ∀ y ∈ order ts, (deviances d (order ts)).get? y = some (deviation y (d.cnt y) d) := by
    intro y hy
    apply Dict.get?_of_mem
    · unfold Dict.WF deviances Dict.keys; simpa [Function.comp_def] using hyn
    · exact List.mem_map.2 ⟨y, hy, rfl⟩
  refine ⟨⟨order ts, (order ts).map (timesCited recs), (order ts).map (fun y => deviation y (d.cnt y) d),
      (order ts).map (fun y => if timesCited recs y = 0 ∧ rankEmpty = false then 0 else rk y)⟩, ?_, hyn, hym, rfl,
      fun y => deviation y (d.cnt y) d, rfl, ?_, rk, rfl, hr2, hr3⟩
  · have hf := fill_spec d (deviances d (order ts)) (ranks (deviances d (order ts))) rankEmpty ⟨[], [], [], []⟩ (order ts)
      (fun y => deviation y (d.cnt y) d) rk hdv hr1
    simp only [rpys, hd, h1, h2, h3, bind, Except.bind, hf]
    have hc : ∀ y ∈ order ts, d.cnt y = timesCited recs y := by
      intro y hy
      have := (hym y).1 hy
      exact hcnt y (by omega) (by omega)
    have e1 : (order ts).map d.cnt = (order ts).map (timesCited recs) := List.map_congr_left hc
    have e2 : (order ts).map (fun y => if d.cnt y = 0 ∧ rankEmpty = false then 0 else rk y) =
        (order ts).map (fun y => if timesCited recs y = 0 ∧ rankEmpty = false then 0 else rk y) :=
      List.map_congr_left (fun y hy => by rw [hc y hy])
    simp [e1, e2]
  · intro y hy
    have hy' := (hym y).1 hy
    obtain ⟨m, hm1, hm2⟩ := deviation_median y (d.cnt y) d
    have e0 := hcnt y (by omega) (by omega)
    have e1 := hcnt (y - 2) (by omega) (by omega)
    have e2 := hcnt (y - 1) (by omega) (by omega)
    have e3 := hcnt (y + 1) (by omega) (by omega)
    have e4 := hcnt (y + 2) (by omega) (by omega)
    refine ⟨m, ?_, by show deviation y (d.cnt y) d = _; rw [hm2, e0]⟩
    have hp : (window d y (d.cnt y)).Perm ((around y).map (timesCited recs)) := by
      simp only [window, around, List.map_cons, List.map_nil, e0, e1, e2, e3, e4]
      refine (List.Perm.swap _ _ _).trans (List.Perm.cons _ ?_)
      exact List.Perm.swap _ _ _
    refine ⟨hp.mem_iff.1 hm1.1, ?_, ?_⟩
    · rw [← hp.countP_eq]; exact hm1.2.1
    · rw [← hp.countP_eq]; exact hm1.2.2

/-- **C25**, the median named in `C25_table` is the only one. -/
theorem C25_median_unique (recs : List Rec) (y : Int) (m m' : Nat) (h : IsMedian ((around y).map (timesCited recs)) m)
    (h' : IsMedian ((around y).map (timesCited recs)) m') : m = m' :=
  IsMedian_unique _ (by simp [around]) m m' h h'

/-- **C25**, when there is no table: with a bound missing and no year to consider it raises `ValueError`; when the default first year is
1000 or earlier, or the default last year 2100 or later, it raises `TypeError`; `dropYears` given as an `int`, which is documented, raises
`TypeError` unless there are no years at all. -/
theorem C25_errors (order : List Int → List Int) (minYear maxYear : Option Int) (drop : DropYears)
    (rankEmpty : Bool) (recs : List Rec) :
    ((minYear = none ∨ maxYear = none) → (∀ y, ¬ Considered minYear maxYear recs y) →
      rpys order minYear maxYear drop rankEmpty recs = .error .valueError) ∧
    (∀ lo hi, FirstYear minYear maxYear recs lo → LastYear minYear maxYear recs hi →
      ((minYear = none ∧ lo ≤ 1000) ∨ (maxYear = none ∧ 2100 ≤ hi) → rpys order minYear maxYear drop rankEmpty recs = .error .typeError) ∧
      (∀ y, drop = .one y → lo ≤ hi → rpys order minYear maxYear drop rankEmpty recs = .error .typeError)) := by
  constructor
  · intro hn hc
    have hk : (countYears minYear maxYear [] recs).keys = [] := by
      rw [List.eq_nil_iff_forall_not_mem]
      intro y hy; exact hc y ((counted_iff _ _ _ _).1 hy)
    cases minYear with
    | none => simp [rpys, hk, resolveMin, bind, Except.bind]
    | some m =>
      cases maxYear with
      | none => simp [rpys, hk, resolveMin, resolveMax, bind, Except.bind]
      | some M => simp at hn
  · intro lo hi hlo hhi
    have h1 := resolveMin_first minYear maxYear recs lo hlo
    have h2 := resolveMax_last minYear maxYear recs hi hhi
    have hr : rpys order minYear maxYear drop rankEmpty recs =
        (targets (if minYear = none ∧ lo ≤ 1000 then none else some lo) (if maxYear = none ∧ 2100 ≤ hi then none else some hi) drop).bind
          (fun ts => fill (countYears minYear maxYear [] recs) (deviances (countYears minYear maxYear [] recs) (order ts))
            (ranks (deviances (countYears minYear maxYear [] recs) (order ts))) rankEmpty ⟨[], [], [], []⟩ (order ts)) := by
      simp only [rpys, h1, h2, bind, Except.bind]
    rw [hr]
    constructor
    · rintro (h | h)
      · rw [if_pos h]; rfl
      · rw [if_pos h]
        generalize (if minYear = none ∧ lo ≤ 1000 then none else some lo) = o
        cases o <;> rfl
    · rintro y rfl hle
      by_cases ha : minYear = none ∧ lo ≤ 1000
      · rw [if_pos ha]; rfl
      · rw [if_neg ha]
        by_cases hb : maxYear = none ∧ 2100 ≤ hi
        · rw [if_pos hb]; rfl
        · rw [if_neg hb]
          have : (rangeI lo (hi + 1)).isEmpty = false := by
            have : lo ∈ rangeI lo (hi + 1) := by rw [mem_rangeI]; omega
            cases hl : rangeI lo (hi + 1) with
            | nil => rw [hl] at this; simp at this
            | cons a b => rfl
          simp [targets, this, Except.bind]

/-- Three records: one with no year, one citing its own future, one with no citations. -/
def exRpys : List Rec :=
  [⟨some [some 1990, none, some 1990, some 1991], none⟩, ⟨some [some 1991, some 1993, some 1994], some 1995⟩, ⟨none, some 2000⟩]

example : FirstYear none (some 1992) exRpys 1990 ∧ LastYear none (some 1992) exRpys 1992 := by
  refine ⟨Or.inr ⟨rfl, ⟨by decide, by simp, by simp⟩, ?_⟩, Or.inl rfl⟩
  rintro y ⟨hy, -, -⟩
  by_contra hc
  have h1 : (1990 : Int) ≠ y := by omega
  have h2 : (1991 : Int) ≠ y := by omega
  have h3 : (1993 : Int) ≠ y := by omega
  have h4 : (1994 : Int) ≠ y := by omega
  simp [timesCited, exRpys, citesOfYear, List.count_cons, h1, h2, h3, h4] at hy

/-- **C25, disagreement.** The documentation says a year's count is the number of times it was cited; a citation of the year before the
citing record, which is not in its future, is left out. -/
theorem C25_recent_citations_lost (order : List Int → List Int) (ho : ∀ l, (order l).Perm l) :
    ∃ t, rpys order (some 1994) (some 1994) .none false [⟨some [some 1994], some 1995⟩] = .ok t ∧ t.year = [1994] ∧ t.count = [0] := by
  obtain ⟨t, h1, h2, h3, h4, _⟩ := C25_table order ho (some 1994) (some 1994) .none false [⟨some [some 1994], some 1995⟩] 1994 1994
    (Or.inl rfl) (Or.inl rfl) (by simp) (by simp) (by simp)
  have hy : t.year = [1994] := by
    have hp : t.year.Perm [1994] := (List.perm_ext_iff_of_nodup h2 (by simp)).2 (fun y => by rw [h3]; simp [Dropped]; omega)
    simpa using hp
  refine ⟨t, h1, hy, ?_⟩
  rw [h4, hy]; decide

end Verif.Props
