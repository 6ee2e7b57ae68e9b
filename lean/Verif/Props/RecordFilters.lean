import Verif.Model.RecordFilters
import Verif.Lemmas.Collection
import Verif.Lemmas.Networks

/-! # C21-C24, C56: the methods that select records -/
set_option autoImplicit false
set_option linter.unusedSectionVars false
set_option linter.unusedSimpArgs false
namespace Verif.Props
open Verif.Py Verif.Model Verif.Model.Citation Verif.Model.RecordFilters

variable {ρ κ ε : Type} [DecidableEq ρ] [DecidableEq κ]

/-! ## C21 -/

/-- The record has a year in the range, ends included. -/
def InYears (year : ρ → Option Int) (s e : Int) (r : ρ) : Prop := ∃ y, year r = some y ∧ s ≤ y ∧ y ≤ e

theorem yearLoop_spec (year : ρ → Option Int) (s e : Int) (dm : Bool) (l acc : List ρ) (hl : l.Nodup) (ha : acc.Nodup)
    (hd : ∀ x ∈ acc, x ∉ l) :
    (dm = false ∧ (∃ r ∈ l, year r = none) ∧ yearLoop year s e dm acc l = .error .typeError) ∨
    ((dm = true ∨ ∀ r ∈ l, year r ≠ none) ∧ ∃ res, yearLoop year s e dm acc l = .ok res ∧ res.Nodup ∧
      ∀ x, x ∈ res ↔ x ∈ acc ∨ (x ∈ l ∧ InYears year s e x)) := by
  induction l generalizing acc with
  | nil => exact Or.inr ⟨Or.inr (by simp), acc, rfl, ha, by simp⟩
  | cons r l ih =>
    rw [List.nodup_cons] at hl
    cases hy : year r with
    | none =>
      cases dm with
      | false => exact Or.inl ⟨rfl, ⟨r, by simp, hy⟩, by simp [yearLoop, hy]⟩
      | true =>
        rcases ih acc hl.2 ha (fun x hx => fun hxl => hd x hx (by simp [hxl])) with ⟨h, _⟩ | ⟨_, res, h1, h2, h3⟩
        · cases h
        · refine Or.inr ⟨Or.inl rfl, res, by simp [yearLoop, hy, h1], h2, fun x => ?_⟩
          rw [h3]
          constructor
          · rintro (h | ⟨h, h'⟩)
            · exact Or.inl h
            · exact Or.inr ⟨by simp [h], h'⟩
          · rintro (h | ⟨h, h'⟩)
            · exact Or.inl h
            · rcases List.mem_cons.1 h with rfl | h
              · obtain ⟨y, h1, _⟩ := h'; rw [hy] at h1; cases h1
              · exact Or.inr ⟨h, h'⟩
    | some y =>
      have hin : InYears year s e r ↔ s ≤ y ∧ y ≤ e := by
        unfold InYears; rw [hy]; simp
      by_cases hr : s ≤ y ∧ y ≤ e
      · have ha' : (PSet.add acc r).Nodup := PSet.nodup_add ha r
        have hd' : ∀ x ∈ PSet.add acc r, x ∉ l := by
          intro x hx hxl
          rcases (PSet.mem_add _ _ _).1 hx with rfl | hx
          · exact hl.1 hxl
          · exact hd x hx (by simp [hxl])
        have hstep : yearLoop year s e dm acc (r :: l) = yearLoop year s e dm (PSet.add acc r) l := by
          simp [yearLoop, hy, hr.1, hr.2]
        rw [hstep]
        rcases ih (PSet.add acc r) hl.2 ha' hd' with ⟨h1, ⟨r', h2, h2'⟩, h3⟩ | ⟨h0, res, h1, h2, h3⟩
        · exact Or.inl ⟨h1, ⟨r', by simp [h2], h2'⟩, h3⟩
        · refine Or.inr ⟨?_, res, h1, h2, fun x => ?_⟩
          · rcases h0 with h0 | h0
            · exact Or.inl h0
            · refine Or.inr fun r' hr' => ?_
              rcases List.mem_cons.1 hr' with rfl | hr'
              · simp [hy]
              · exact h0 r' hr'
          · rw [h3, PSet.mem_add, List.mem_cons]
            constructor
            · rintro ((rfl | h) | ⟨h, h'⟩)
              · exact Or.inr ⟨Or.inl rfl, hin.2 hr⟩
              · exact Or.inl h
              · exact Or.inr ⟨Or.inr h, h'⟩
            · rintro (h | ⟨rfl | h, h'⟩)
              · exact Or.inl (Or.inr h)
              · exact Or.inl (Or.inl rfl)
              · exact Or.inr ⟨h, h'⟩
      · have hstep : yearLoop year s e dm acc (r :: l) = yearLoop year s e dm acc l := by
          simp only [yearLoop, hy]
          rw [if_neg]
          simpa using hr
        rw [hstep]
        rcases ih acc hl.2 ha (fun x hx => fun hxl => hd x hx (by simp [hxl])) with ⟨h1, ⟨r', h2, h2'⟩, h3⟩ | ⟨h0, res, h1, h2, h3⟩
        · exact Or.inl ⟨h1, ⟨r', by simp [h2], h2'⟩, h3⟩
        · refine Or.inr ⟨?_, res, h1, h2, fun x => ?_⟩
          · rcases h0 with h0 | h0
            · exact Or.inl h0
            · refine Or.inr fun r' hr' => ?_
              rcases List.mem_cons.1 hr' with rfl | hr'
              · simp [hy]
              · exact h0 r' hr'
          · rw [h3, List.mem_cons]
            constructor
            · rintro (h | ⟨h, h'⟩)
              · exact Or.inl h
              · exact Or.inr ⟨Or.inr h, h'⟩
            · rintro (h | ⟨rfl | h, h'⟩)
              · exact Or.inl h
              · exact absurd (hin.1 h') hr
              · exact Or.inr ⟨h, h'⟩

/-- C21: the result holds exactly the records with a year in the range, each once; it keeps the types and tells the range in its
name; without `dropMissingYears` a record with no year makes the call raise, and otherwise the two agree. -/
theorem C21_yearSplit (year : ρ → Option Int) (s e : Int) (dropMissing : Bool) (c : Coll ρ κ ε) (hc : c.WF) :
    if dropMissing = false ∧ ∃ r ∈ c.items, year r = none then yearSplit year s e dropMissing c = .error .typeError
    else ∃ c', yearSplit year s e dropMissing c = .ok c' ∧ c'.WF ∧ (∀ r, r ∈ c'.items ↔ r ∈ c.items ∧ InYears year s e r) ∧
      c'.types = c.types ∧ c'.name = c.name ++ "(" ++ toString s ++ "-" ++ toString e ++ ")" ∧ c'.bad = false ∧ c'.errors = [] := by
  have h := yearLoop_spec year s e dropMissing c.items [] hc.1 (by simp) (by simp)
  split
  · rename_i hcond
    rcases h with ⟨_, _, h⟩ | ⟨h0, _⟩
    · simp [yearSplit, h, bind, Except.bind]
    · rcases h0 with h0 | h0
      · rw [hcond.1] at h0; cases h0
      · obtain ⟨r, hr, hy⟩ := hcond.2; exact absurd hy (h0 r hr)
  · rename_i hcond
    rcases h with ⟨h1, h2, _⟩ | ⟨_, res, h1, h2, h3⟩
    · exact absurd ⟨h1, h2⟩ hcond
    · refine ⟨{ (Coll.fresh "RecordCollection" res (c.name ++ "(" ++ toString s ++ "-" ++ toString e ++ ")") : Coll ρ κ ε)
        with types := c.types }, by rw [yearSplit, h1]; rfl, ⟨?_, Dict.WF_nil⟩, fun r => ?_, rfl, rfl, rfl, rfl⟩
      · exact PSet.nodup_ofList _
      · show r ∈ PSet.ofList res ↔ _
        rw [PSet.mem_ofList, h3]; simp

/-- C21: cutting a range in two at any year gives two disjoint collections that together are the whole. -/
theorem C21_partition (year : ρ → Option Int) (s m e : Int) (hsm : s ≤ m) (hme : m ≤ e) (c : Coll ρ κ ε) (hc : c.WF) :
    ∃ a b w, yearSplit year s m true c = .ok a ∧ yearSplit year (m + 1) e true c = .ok b ∧ yearSplit year s e true c = .ok w ∧
      (∀ r, r ∈ w.items ↔ r ∈ a.items ∨ r ∈ b.items) ∧ (∀ r, ¬ (r ∈ a.items ∧ r ∈ b.items)) := by
  have ha := C21_yearSplit year s m true c hc
  have hb := C21_yearSplit year (m + 1) e true c hc
  have hw := C21_yearSplit year s e true c hc
  rw [if_neg (by simp)] at ha hb hw
  obtain ⟨a, ha, _, ha2, _⟩ := ha
  obtain ⟨b, hb, _, hb2, _⟩ := hb
  obtain ⟨w, hw, _, hw2, _⟩ := hw
  refine ⟨a, b, w, ha, hb, hw, fun r => ?_, fun r => ?_⟩
  · rw [ha2, hb2, hw2]
    unfold InYears
    constructor
    · rintro ⟨hr, y, hy, h1, h2⟩
      by_cases hm : y ≤ m
      · exact Or.inl ⟨hr, y, hy, h1, hm⟩
      · exact Or.inr ⟨hr, y, hy, by omega, h2⟩
    · rintro (⟨hr, y, hy, h1, h2⟩ | ⟨hr, y, hy, h1, h2⟩)
      · exact ⟨hr, y, hy, h1, by omega⟩
      · exact ⟨hr, y, hy, by omega, h2⟩
  · rw [ha2, hb2]
    rintro ⟨⟨_, y, hy, _, h2⟩, _, y', hy', h1', _⟩
    rw [hy] at hy'; cases hy'; omega

private def yr (n : Nat) : Option Int := if n = 3 then none else some (1990 + n)
private def cY : Coll Nat Nat Nat := { cls := "RecordCollection", items := [0, 1, 2, 3, 4], types := ["A"], name := "n", bad := false, errors := [] }
example : cY.WF ∧ (∃ c, yearSplit yr 1991 1994 true cY = .ok c ∧ c.items = [1, 2, 4]) ∧
    yearSplit yr 1991 1994 false cY = .error .typeError := by
  refine ⟨by unfold Coll.WF; decide, ⟨_, rfl, by decide⟩, by decide⟩

/-! ## C22 -/

/-- The object has the attribute (or none is needed). -/
def HasKey : KeyType → Cite → Prop
  | .citation, _ => True
  | .journal, c => c.journal ≠ none
  | .year, c => c.year ≠ none
  | .author, c => c.author ≠ none

/-- What a citation is counted under, if anything. -/
def countedAs (hash : Str → Int) : KeyType → Cite → Option CKey
  | .citation, c => some (.cite (hash c.id))
  | .journal, c => (c.journal.getD none).map CKey.str
  | .year, c => (c.year.getD none).map CKey.num
  | .author, c => (c.author.getD none).map CKey.str

theorem ckey_ok {hash : Str → Int} {kt : KeyType} {c : Cite} (h : HasKey kt c) : ckey hash kt c = .ok (countedAs hash kt c) := by
  cases kt <;> simp only [HasKey] at h <;> unfold ckey countedAs
  · rfl
  · cases hc : c.journal with
    | none => exact absurd hc h
    | some v => simp [hc]
  · cases hc : c.year with
    | none => exact absurd hc h
    | some v => simp [hc]
  · cases hc : c.author with
    | none => exact absurd hc h
    | some v => simp [hc]

theorem ckey_err {hash : Str → Int} {kt : KeyType} {c : Cite} (h : ¬ HasKey kt c) : ckey hash kt c = .error .attributeError := by
  cases kt <;> simp only [HasKey, not_true_eq_false, ne_eq, not_not] at h <;> simp [ckey, h]

theorem stats_inner (hash : Str → Int) (kt : KeyType) (cs : List Cite) (d : Dict CKey Nat) (h : ∀ c ∈ cs, HasKey kt c) :
    cs.foldlM (statsCite hash kt) d = .ok ((cs.filterMap (countedAs hash kt)).foldl Dict.incr d) := by
  induction cs generalizing d with
  | nil => rfl
  | cons c cs ih =>
    have hc := ckey_ok (hash := hash) (h c (by simp))
    have ih' := fun d => ih d (fun c' hc' => h c' (by simp [hc']))
    rw [List.foldlM_cons]
    simp only [statsCite, hc, bind, Except.bind]
    cases hk : countedAs hash kt c with
    | none => rw [List.filterMap_cons_none hk]; exact ih' d
    | some k => rw [List.filterMap_cons_some hk]; exact ih' (d.incr k)

theorem stats_outer (verbose : Bool) (hasUT : ρ → Bool) (hash : Str → Int) (kt : KeyType) (cites : ρ → Option (List Cite)) (recs : List ρ) (d : Dict CKey Nat)
    (hv : verbose = true → ∀ r ∈ recs, hasUT r = true)
    (h : ∀ r ∈ recs, ∀ c ∈ (cites r).getD [], HasKey kt c) :
    recs.foldlM (statsRec verbose hasUT hash kt cites) d =
    (.ok (((recs.flatMap (fun r => (cites r).getD [])).filterMap (countedAs hash kt)).foldl Dict.incr d) :
      Except FErr (Dict CKey Nat)) := by
  induction recs generalizing d with
  | nil => rfl
  | cons r recs ih =>
    have hr := h r (by simp)
    have ih' := fun d => ih d (fun hv' r' hr' => hv hv' r' (by simp [hr'])) (fun r' hr' => h r' (by simp [hr']))
    have hs : (verbose && !hasUT r) = false := by
      cases verbose with
      | false => rfl
      | true => simp [hv rfl r (by simp)]
    rw [List.foldlM_cons, List.flatMap_cons, List.filterMap_append, List.foldl_append]
    unfold statsRec
    rw [hs]
    cases hc : cites r with
    | none => exact ih' d
    | some cs =>
      rw [hc] at hr
      simp only [stats_inner hash kt cs d hr]
      exact ih' _

/-- C22: the dictionary holds, for every key some citation is counted under, the number of citations counted under it, and
nothing else; the counts add up to the number of counted citations. Without progress this holds for records of every type; with it all must be
records of the Web of Science. -/
theorem C22_localCiteStats_partial (verbose : Bool) (hasUT : ρ → Bool) (hash : Str → Int) (kt : KeyType) (cites : ρ → Option (List Cite)) (recs : List ρ)
    (hv : verbose = true → ∀ r ∈ recs, hasUT r = true)
    (h : ∀ r ∈ recs, ∀ c ∈ (cites r).getD [], HasKey kt c) :
    ∃ d, localCiteStats verbose hasUT hash kt cites recs = .ok d ∧ Dict.WF d ∧
      (∀ k n, d.get? k = some n ↔ 0 < n ∧
        n = (recs.map (fun r => ((cites r).getD []).countP (fun c => countedAs hash kt c = some k))).sum) ∧
      (d.map Prod.snd).sum = (recs.map (fun r => ((cites r).getD []).countP (fun c => (countedAs hash kt c).isSome))).sum := by
  let L := (recs.flatMap (fun r => (cites r).getD [])).filterMap (countedAs hash kt)
  have hcount : ∀ k, L.count k = (recs.map (fun r => ((cites r).getD []).countP (fun c => countedAs hash kt c = some k))).sum := by
    intro k
    rw [← Networks.sum_map_countP]
    show ((recs.flatMap (fun r => (cites r).getD [])).filterMap (countedAs hash kt)).count k = _
    generalize recs.flatMap (fun r => (cites r).getD []) = l
    induction l with
    | nil => rfl
    | cons c l ih =>
      rw [List.countP_cons]
      cases hk : countedAs hash kt c with
      | none => rw [List.filterMap_cons_none hk, ih]; simp
      | some k' => rw [List.filterMap_cons_some hk, List.count_cons, ih]; simp
  have hlen : L.length = (recs.map (fun r => ((cites r).getD []).countP (fun c => (countedAs hash kt c).isSome))).sum := by
    rw [← Networks.sum_map_countP]
    show ((recs.flatMap (fun r => (cites r).getD [])).filterMap (countedAs hash kt)).length = _
    generalize recs.flatMap (fun r => (cites r).getD []) = l
    induction l with
    | nil => rfl
    | cons c l ih =>
      rw [List.countP_cons]
      cases hk : countedAs hash kt c with
      | none => rw [List.filterMap_cons_none hk, ih]; simp
      | some k' => rw [List.filterMap_cons_some hk, List.length_cons, ih]; simp
  have hpos : Dict.Pos (L.foldl Dict.incr []) := Dict.Pos_foldl_incr L Dict.Pos_nil
  refine ⟨L.foldl Dict.incr [], stats_outer verbose hasUT hash kt cites recs [] hv h, Dict.WF_foldl_incr L Dict.WF_nil, fun k n => ?_, ?_⟩
  · rw [Dict.get?_eq_some_iff_cnt hpos, Dict.cnt_foldl_incr, hcount]
    simp only [Dict.cnt, Dict.get?, Option.getD_none, Nat.zero_add]
    tauto
  · rw [← hlen]
    have hset : ∀ (d : Dict CKey Nat) (k : CKey), (((d.incr k).map Prod.snd).sum) = (d.map Prod.snd).sum + 1 := by
      intro d k
      unfold Dict.incr
      induction d with
      | nil => rfl
      | cons p d ih =>
        obtain ⟨a, n⟩ := p
        by_cases hak : k = a
        · subst hak; simp [Dict.get?, Dict.set]; omega
        · simp only [Dict.get?, if_neg hak, if_neg (Ne.symm hak), Dict.set]
          cases hg : Dict.get? d k with
          | none => rw [hg] at ih; simp only [hg, List.map_cons, List.sum_cons] at ih ⊢; omega
          | some m => rw [hg] at ih; simp only [hg, List.map_cons, List.sum_cons] at ih ⊢; omega
    have : ∀ (l : List CKey) (d : Dict CKey Nat), ((l.foldl Dict.incr d).map Prod.snd).sum = (d.map Prod.snd).sum + l.length := by
      intro l
      induction l with
      | nil => intro d; rfl
      | cons k l ih => intro d; rw [List.foldl_cons, ih, hset, List.length_cons]; omega
    rw [this]; simp

theorem stats_inner_err (hash : Str → Int) (kt : KeyType) (cs : List Cite) (d : Dict CKey Nat) (h : ∃ c ∈ cs, ¬ HasKey kt c) :
    cs.foldlM (statsCite hash kt) d = .error .attributeError := by
  induction cs generalizing d with
  | nil => obtain ⟨c, hc, _⟩ := h; simp at hc
  | cons c cs ih =>
    rw [List.foldlM_cons]
    by_cases hc : HasKey kt c
    · have h' : ∃ c ∈ cs, ¬ HasKey kt c := by
        obtain ⟨x, hx, hn⟩ := h
        rcases List.mem_cons.1 hx with rfl | hx
        · exact absurd hc hn
        · exact ⟨x, hx, hn⟩
      simp only [statsCite, ckey_ok (hash := hash) hc, bind, Except.bind]
      cases countedAs hash kt c with
      | none => exact ih d h'
      | some k => exact ih (d.incr k) h'
    · simp only [statsCite, ckey_err hc, bind, Except.bind]

theorem stats_outer_err (verbose : Bool) (hasUT : ρ → Bool) (hash : Str → Int) (kt : KeyType) (cites : ρ → Option (List Cite)) (recs : List ρ)
    (h : ∃ r ∈ recs, (verbose = true ∧ hasUT r = false) ∨ ∃ c ∈ (cites r).getD [], ¬ HasKey kt c) (d : Dict CKey Nat) :
    recs.foldlM (statsRec verbose hasUT hash kt cites) d = (.error .attributeError : Except FErr (Dict CKey Nat)) := by
  induction recs generalizing d with
  | nil => obtain ⟨r, hr, _⟩ := h; simp at hr
  | cons r recs ih =>
    rw [List.foldlM_cons]
    by_cases hu : (verbose && !hasUT r) = true
    · unfold statsRec; rw [if_pos hu]; rfl
    · have hu' : ¬ (verbose = true ∧ hasUT r = false) := by simpa using hu
      by_cases hc : ∃ c ∈ (cites r).getD [], ¬ HasKey kt c
      · unfold statsRec
        rw [if_neg hu]
        cases hr : cites r with
        | none => rw [hr] at hc; simp at hc
        | some cs =>
          rw [hr] at hc
          simp only [stats_inner_err hash kt cs d hc]
          rfl
      · have h' : ∃ r ∈ recs, (verbose = true ∧ hasUT r = false) ∨ ∃ c ∈ (cites r).getD [], ¬ HasKey kt c := by
          obtain ⟨x, hx, hn⟩ := h
          rcases List.mem_cons.1 hx with rfl | hx
          · exact absurd hn (not_or.2 ⟨hu', hc⟩)
          · exact ⟨x, hx, hn⟩
        have hstep : ∃ d', statsRec verbose hasUT hash kt cites d r = .ok d' := by
          unfold statsRec
          rw [if_neg hu]
          cases hr : cites r with
          | none => exact ⟨d, rfl⟩
          | some cs =>
            rw [hr] at hc
            push Not at hc
            exact ⟨_, stats_inner hash kt cs d hc⟩
        obtain ⟨d', hd'⟩ := hstep
        rw [hd']
        exact ih h' d'

/-- C22: when some citation has no such attribute at all (a Scopus citation that could not be read) the call raises, with or without progress. -/
theorem C22_raises (verbose : Bool) (hasUT : ρ → Bool) (hash : Str → Int) (kt : KeyType) (cites : ρ → Option (List Cite)) (recs : List ρ)
    (h : ∃ r ∈ recs, ∃ c ∈ (cites r).getD [], ¬ HasKey kt c) :
    localCiteStats verbose hasUT hash kt cites recs = .error .attributeError := by
  obtain ⟨r, hr, hc⟩ := h
  exact stats_outer_err verbose hasUT hash kt cites recs ⟨r, hr, Or.inr hc⟩ []

/-- C22: the negation of the "exactly when": with progress shown, one record that is not from the Web of Science is enough for the call to raise, whatever
its citations are. -/
theorem C22_progress_raises (hasUT : ρ → Bool) (hash : Str → Int) (kt : KeyType) (cites : ρ → Option (List Cite)) (recs : List ρ)
    (h : ∃ r ∈ recs, hasUT r = false) :
    localCiteStats true hasUT hash kt cites recs = .error .attributeError := by
  obtain ⟨r, hr, hu⟩ := h
  exact stats_outer_err true hasUT hash kt cites recs ⟨r, hr, Or.inl ⟨rfl, hu⟩⟩ []

/-- C22: and these are all the cases in which it raises. -/
theorem C22_raises_iff (verbose : Bool) (hasUT : ρ → Bool) (hash : Str → Int) (kt : KeyType) (cites : ρ → Option (List Cite)) (recs : List ρ) :
    localCiteStats verbose hasUT hash kt cites recs = .error .attributeError ↔
      (verbose = true ∧ ∃ r ∈ recs, hasUT r = false) ∨ ∃ r ∈ recs, ∃ c ∈ (cites r).getD [], ¬ HasKey kt c := by
  constructor
  · intro he
    by_contra hn
    rw [not_or] at hn
    obtain ⟨hv, hc⟩ := hn
    push Not at hc
    have hv' : verbose = true → ∀ r ∈ recs, hasUT r = true := by
      intro hvt r hr
      by_contra hu
      exact hv ⟨hvt, r, hr, by simpa using hu⟩
    obtain ⟨d, hd, _⟩ := C22_localCiteStats_partial verbose hasUT hash kt cites recs hv' hc
    rw [hd] at he
    exact absurd he (by simp)
  · rintro (⟨rfl, r, hr, hu⟩ | h)
    · exact C22_progress_raises hasUT hash kt cites recs ⟨r, hr, hu⟩
    · exact C22_raises verbose hasUT hash kt cites recs h

/-- C22: the table form has the same entries, row by row. -/
theorem C22_pandas (d : Dict CKey Nat) : pandasStats d = (d.keys, d.map Prod.snd) := by
  unfold pandasStats Dict.keys
  have : ∀ (l : List (CKey × Nat)) (acc : List CKey × List Nat),
      l.foldl (fun acc p => (acc.1 ++ [p.1], acc.2 ++ [p.2])) acc = (acc.1 ++ l.map Prod.fst, acc.2 ++ l.map Prod.snd) := by
    intro l
    induction l with
    | nil => intro acc; simp
    | cons p l ih => intro acc; rw [List.foldl_cons, ih]; simp
  simpa using this d ([], [])

private def ct (id : String) (a : Option String) (y : Option Int) (j : Option String) : Cite where
  id := id.toList
  original := id.toList
  author := some (a.map String.toList)
  year := some y
  journal := some (j.map String.toList)
  V := some none
  P := some none
  misc := some none
  bad := j.isNone
private def hs (s : Str) : Int := Int.ofNat (s.map Char.toNat).sum
private def c1 := ct "A, 1990, J" (some "A") (some 1990) (some "J")
private def c2 := ct "B, 1990" (some "B") (some 1990) none
private def c3 := ct "C, 1991, K" (some "C") (some 1991) (some "K")
private def ci (r : Nat) : Option (List Cite) := if r = 0 then some [c1, c2, c1] else if r = 1 then some [c2, c3] else none

example : localCiteStats false (fun r => r ≠ 2) hs .year ci [0, 1, 2] = .ok [(.num 1990, 4), (.num 1991, 1)] ∧
    localCiteStats true (fun r => r ≠ 2) hs .year ci [0, 1, 2] = .error .attributeError ∧
    localCiteStats true (fun _ => true) hs .journal ci [0, 1, 2] = .ok [(.str "J".toList, 2), (.str "K".toList, 1)] := by decide

/-! ## C23 -/

theorem citingLoop_eq (hash : Str → Int) (cites : ρ → Option (List Cite)) (t : Cite) (recs : List ρ) :
    citingLoop hash cites t recs = recs.filter (fun r => ((cites r).getD []).any (fun c => citeEq hash t c)) := by
  unfold citingLoop
  have : ∀ acc : List ρ, recs.foldl (fun localCites r =>
    match cites r with
    | none => localCites
    | some cs => if cs.any (fun c => citeEq hash t c) then localCites ++ [r] else localCites) acc =
      acc ++ recs.filter (fun r => ((cites r).getD []).any (fun c => citeEq hash t c)) := by
    induction recs with
    | nil => simp
    | cons r recs ih =>
      intro acc
      rw [List.foldl_cons, ih, List.filter_cons]
      cases hc : cites r with
      | none => simp
      | some cs =>
        simp only [Option.getD_some]
        split <;> simp
  have h0 := this []
  rw [List.nil_append] at h0
  exact h0

/-- C23, for citations: exactly the records that list a citation equal to the target, each once. -/
theorem C23_citation (hash : Str → Int) (idOf : ρ → Str) (own : ρ → Cite) (cites : ρ → Option (List Cite)) (c : Coll ρ κ ε) (t : Cite) :
    ∃ l, localCitesOf hash idOf own cites c (.citation t) = .ok l ∧ l.Nodup ∧
      ∀ r, r ∈ l ↔ r ∈ c.items ∧ ∃ d ∈ (cites r).getD [], hash t.id = hash d.id := by
  refine ⟨_, rfl, PSet.nodup_ofList _, fun r => ?_⟩
  rw [PSet.mem_ofList, citingLoop_eq, List.mem_filter, List.any_eq_true]
  simp [citeEq]

/-- C23, for strings that are the id of a record: the records that cite that record. -/
theorem C23_id (hash : Str → Int) (idOf : ρ → Str) (own : ρ → Cite) (cites : ρ → Option (List Cite)) (c : Coll ρ κ ε)
    (hids : (c.items.map idOf).Nodup) (r0 : ρ) (hr0 : r0 ∈ c.items) :
    localCitesOf hash idOf own cites c (.string (idOf r0)) = localCitesOf hash idOf own cites c (.citation (own r0)) := by
  have : Coll.getID idOf c (idOf r0) = some r0 := by
    unfold Coll.getID
    have : ∀ l : List ρ, (l.map idOf).Nodup → r0 ∈ l → Coll.findID idOf (idOf r0) l = some r0 := by
      intro l
      induction l with
      | nil => intro _ h; simp at h
      | cons i l ih =>
        intro hn hm
        simp only [List.map_cons, List.nodup_cons] at hn
        unfold Coll.findID
        by_cases hi : idOf i = idOf r0
        · rw [if_pos hi]
          rcases List.mem_cons.1 hm with rfl | hm
          · rfl
          · exact absurd (List.mem_map.2 ⟨r0, hm, hi.symm⟩) hn.1
        · rw [if_neg hi]
          rcases List.mem_cons.1 hm with rfl | hm
          · exact absurd rfl hi
          · exact ih hn.2 hm
    exact this _ hids hr0
  simp only [localCitesOf, this]

/-- C23, the failure: any other string gives an empty collection, also when it is the text of a citation some record lists. -/
theorem C23_citation_string_ignored (hash : Str → Int) (idOf : ρ → Str) (own : ρ → Cite) (cites : ρ → Option (List Cite)) (c : Coll ρ κ ε)
    (s : Str) (hs : ∀ r ∈ c.items, idOf r ≠ s) : localCitesOf hash idOf own cites c (.string s) = .ok [] := by
  have : Coll.getID idOf c s = none := by
    unfold Coll.getID
    have : ∀ l : List ρ, (∀ r ∈ l, idOf r ≠ s) → Coll.findID idOf s l = none := by
      intro l
      induction l with
      | nil => intro _; rfl
      | cons i l ih =>
        intro h
        unfold Coll.findID
        rw [if_neg (h i (by simp))]
        exact ih (fun r hr => h r (by simp [hr]))
    exact this _ hs
  simp only [localCitesOf, this]

/-- C23, the failure: a record, even one of the collection, makes the call raise. -/
theorem C23_record_raises (hash : Str → Int) (idOf : ρ → Str) (own : ρ → Cite) (cites : ρ → Option (List Cite)) (c : Coll ρ κ ε) (r : ρ) :
    localCitesOf hash idOf own cites c (.record r) = .error .valueError := rfl

/-- C23: what does hold of the full claim, for the two kinds of target that work. Missing: records and citation strings, for which
the code does something else (`C23_record_raises`, `C23_citation_string_ignored`). -/
theorem C23_localCitesOf_partial (hash : Str → Int) (idOf : ρ → Str) (own : ρ → Cite) (cites : ρ → Option (List Cite)) (c : Coll ρ κ ε)
    (hids : (c.items.map idOf).Nodup) (t : Cite) (target : Target ρ)
    (ht : target = .citation t ∨ ∃ r0 ∈ c.items, target = .string (idOf r0) ∧ t = own r0) :
    ∃ l, localCitesOf hash idOf own cites c target = .ok l ∧ l.Nodup ∧
      ∀ r, r ∈ l ↔ r ∈ c.items ∧ ∃ d ∈ (cites r).getD [], hash t.id = hash d.id := by
  rcases ht with rfl | ⟨r0, hr0, rfl, rfl⟩
  · exact C23_citation hash idOf own cites c t
  · rw [C23_id hash idOf own cites c hids r0 hr0]
    exact C23_citation hash idOf own cites c _

private def cC : Coll Nat Nat Nat := { cls := "RecordCollection", items := [0, 1, 2], types := [], name := "", bad := false, errors := [] }
private def ids (n : Nat) : Str := if n = 0 then "WOS:0".toList else if n = 1 then "WOS:1".toList else "WOS:2".toList
private def ownC (n : Nat) : Cite := if n = 2 then c3 else c1
example : localCitesOf hs ids ownC ci cC (.citation c2) = .ok [0, 1] ∧ (cC.items.map ids).Nodup ∧
    localCitesOf hs ids ownC ci cC (.string "WOS:2".toList) = .ok [1] ∧
    localCitesOf hs ids ownC ci cC (.string "C, 1991, K".toList) = .ok [] := by
  decide

/-! ## C24 -/

/-- The citation matches the key in the field. -/
def FieldMatch (upper : Str → Str) (parseInt : Str → Option Int) (key : Str) (caseSensitive : Bool) : Field → Cite → Prop
  | .all, c => if caseSensitive then key <:+: c.original else upper key <:+: upper c.original
  | .author, c => ∃ a, c.author = some (some a) ∧ upper key <:+: upper a
  | .journal, c => ∃ j, c.journal = some (some j) ∧ upper key <:+: j
  | .year, c => ∃ n, parseInt key = some n ∧ c.year = some (some n)
  | .V, c => ∃ v, c.V = some (some v) ∧ upper key <:+: v
  | .P, c => ∃ p, c.P = some (some p) ∧ upper key <:+: p
  | .misc, c => ∃ m, c.misc = some (some m) ∧ upper key <:+: m
  | .anonymous, c => c.author = none ∨ c.author = some (some "[Anonymous]".toList)
  | .bad, c => c.bad = true
  | .unknown, _ => False

/-- The field is `None`, which stops the search of the record for these fields. -/
def Blocks : Field → Cite → Prop
  | .journal, c => c.journal = some none
  | .V, c => c.V = some none
  | .P, c => c.P = some none
  | .misc, c => c.misc = some none
  | _, _ => False

theorem testIn_spec (key : Str) (o : Option (Option Str)) :
    (testIn key o = .yes ↔ ∃ s, o = some (some s) ∧ key <:+: s) ∧ (testIn key o = .typeError ↔ o = some none) ∧
      testIn key o ≠ .valueError := by
  rcases o with _ | _ | s
  · simp [testIn]
  · simp [testIn]
  · simp only [testIn, Option.some.injEq, exists_eq_left']
    rw [← Str.contains_iff]
    cases Str.contains key s <;> simp

theorem test_spec (upper : Str → Str) (parseInt : Str → Option Int) (key : Str) (field : Field) (cs : Bool) (c : Cite) :
    (test upper parseInt key field cs c = .yes ↔ FieldMatch upper parseInt key cs field c) ∧
    (test upper parseInt key field cs c = .typeError ↔ Blocks field c) ∧
    (test upper parseInt key field cs c = .valueError ↔ field = .year ∧ parseInt key = none) := by
  cases field <;> simp only [test, FieldMatch, Blocks]
  case all =>
    cases cs
    · simp only [Bool.false_eq_true, if_false, ← Str.contains_iff]
      cases Str.contains (upper key) (upper c.original) <;> simp
    · simp only [if_true, ← Str.contains_iff]
      cases Str.contains key c.original <;> simp
  case author =>
    rcases c.author with _ | _ | a
    · simp
    · simp
    · simp only [← Str.contains_iff, Option.some.injEq, exists_eq_left']
      cases Str.contains (upper key) (upper a) <;> simp
  case year =>
    cases parseInt key with
    | none => simp
    | some n =>
      simp only [Option.some.injEq, exists_eq_left', reduceCtorEq, and_false, iff_false]
      split <;> simp [*]
  case anonymous =>
    have h : isAnonymous c = true ↔ c.author = none ∨ c.author = some (some "[Anonymous]".toList) := by
      unfold isAnonymous
      generalize "[Anonymous]".toList = w
      rcases c.author with _ | a <;> simp
    rw [← h]
    split <;> simp [*]
  case bad => split <;> simp [*]
  case unknown => simp
  all_goals
    obtain ⟨h1, h2, h3⟩ := testIn_spec (upper key) _
    exact ⟨h1, h2, by simp [h3]⟩

/-- A record is selected: it lists a matching citation before any that stops the search. -/
def Selected (upper : Str → Str) (parseInt : Str → Option Int) (key : Str) (cs : Bool) (field : Field) (l : List Cite) : Prop :=
  ∃ pre c post, l = pre ++ c :: post ∧ FieldMatch upper parseInt key cs field c ∧ ∀ d ∈ pre, ¬ Blocks field d

theorem matchLoop_spec (upper : Str → Str) (parseInt : Str → Option Int) (key : Str) (field : Field) (cs : Bool)
    (hy : field = .year → parseInt key ≠ none) (l : List Cite) :
    ∃ b, matchLoop (test upper parseInt key field cs) l = .ok b ∧ (b = true ↔ Selected upper parseInt key cs field l) := by
  induction l with
  | nil => exact ⟨false, rfl, by simp [Selected]⟩
  | cons c l ih =>
    obtain ⟨h1, h2, h3⟩ := test_spec upper parseInt key field cs c
    unfold matchLoop
    cases ht : test upper parseInt key field cs c with
    | yes =>
      refine ⟨true, rfl, ?_⟩
      simp only [true_iff]
      exact ⟨[], c, l, rfl, h1.1 ht, by simp⟩
    | no =>
      obtain ⟨b, hb, hb2⟩ := ih
      refine ⟨b, hb, ?_⟩
      rw [hb2]
      have hnm : ¬ FieldMatch upper parseInt key cs field c := by rw [← h1, ht]; simp
      have hnb : ¬ Blocks field c := by rw [← h2, ht]; simp
      constructor
      · rintro ⟨pre, d, post, rfl, hm, hp⟩
        exact ⟨c :: pre, d, post, rfl, hm, by
          intro x hx
          rcases List.mem_cons.1 hx with rfl | hx
          · exact hnb
          · exact hp x hx⟩
      · rintro ⟨pre, d, post, he, hm, hp⟩
        cases pre with
        | nil =>
          simp only [List.nil_append, List.cons.injEq] at he
          rw [← he.1] at hm; exact absurd hm hnm
        | cons x pre =>
          simp only [List.cons_append, List.cons.injEq] at he
          exact ⟨pre, d, post, he.2, hm, fun y hy => hp y (by simp [hy])⟩
    | typeError =>
      refine ⟨false, rfl, ?_⟩
      simp only [Bool.false_eq_true, false_iff]
      have hnm : ¬ FieldMatch upper parseInt key cs field c := by rw [← h1, ht]; simp
      rintro ⟨pre, d, post, he, hm, hp⟩
      cases pre with
      | nil =>
        simp only [List.nil_append, List.cons.injEq] at he
        rw [← he.1] at hm; exact hnm hm
      | cons x pre =>
        simp only [List.cons_append, List.cons.injEq] at he
        exact hp x (by simp) (he.1 ▸ h2.1 ht)
    | valueError => exact absurd (h3.1 ht).2 (hy (h3.1 ht).1)

theorem citeFilter_loop (t : Cite → Test) (cites : ρ → Option (List Cite)) (p : ρ → Bool) (recs : List ρ)
    (h : ∀ r ∈ recs, matchRecord t (cites r) = .ok (p r)) (acc : List ρ) :
    recs.foldlM (fun acc r => do
      if ← matchRecord t (cites r) then return acc ++ [r] else return acc) acc =
      (.ok (acc ++ recs.filter p) : Except FErr (List ρ)) := by
  induction recs generalizing acc with
  | nil => simp [pure, Except.pure]
  | cons r recs ih =>
    have ih' := fun acc => ih (fun r' hr' => h r' (by simp [hr'])) acc
    rw [List.foldlM_cons, h r (by simp), List.filter_cons]
    cases p r
    · simpa [bind, Except.bind, pure, Except.pure] using ih' acc
    · simpa [bind, Except.bind, pure, Except.pure] using ih' (acc ++ [r])

theorem foldl_exclude (l ret : List ρ) (acc : List ρ) :
    l.foldl (fun ex r => if r ∉ ret then ex ++ [r] else ex) acc = acc ++ l.filter (fun r => decide (r ∉ ret)) := by
  induction l generalizing acc with
  | nil => simp
  | cons r l ih =>
    rw [List.foldl_cons, ih, List.filter_cons]
    by_cases h : r ∈ ret <;> simp [h]

/-- C24: exactly which records are selected, for every field: those listing a matching citation before any citation whose field is
`None`; and `reverse` gives exactly the others. The two results partition the collection. -/
theorem C24_citeFilter (upper : Str → Str) (parseInt : Str → Option Int) (cites : ρ → Option (List Cite)) (key : Str) (field : Field)
    (cs : Bool) (c : Coll ρ κ ε) (hy : field = .year → parseInt key ≠ none) :
    ∃ a b, citeFilter upper parseInt cites key field false cs c = .ok a ∧ citeFilter upper parseInt cites key field true cs c = .ok b ∧
      a.WF ∧ b.WF ∧ a.name = c.name ∧ b.name = c.name ∧
      (∀ r, r ∈ a.items ↔ r ∈ c.items ∧ Selected upper parseInt key cs field ((cites r).getD [])) ∧
      (∀ r, r ∈ b.items ↔ r ∈ c.items ∧ r ∉ a.items) := by
  let t := test upper parseInt key field cs
  let p : ρ → Bool := fun r => match matchRecord t (cites r) with
    | .ok b => b
    | .error _ => false
  have hp : ∀ r, matchRecord t (cites r) = .ok (p r) ∧ (p r = true ↔ Selected upper parseInt key cs field ((cites r).getD [])) := by
    intro r
    have : ∃ b, matchRecord t (cites r) = .ok b ∧ (b = true ↔ Selected upper parseInt key cs field ((cites r).getD [])) := by
      unfold matchRecord
      cases cites r with
      | none => exact ⟨false, rfl, by simp [Selected]⟩
      | some l => exact matchLoop_spec upper parseInt key field cs hy l
    obtain ⟨b, hb, hb2⟩ := this
    have hpb : p r = b := by simp only [p, hb]
    rw [hpb]; exact ⟨hb, hb2⟩
  have hloop := citeFilter_loop t cites p c.items (fun r _ => (hp r).1) []
  rw [List.nil_append] at hloop
  have ha : citeFilter upper parseInt cites key field false cs c =
      .ok (Coll.fresh "RecordCollection" (c.items.filter p) c.name) := by
    unfold citeFilter; rw [hloop]; rfl
  have hb : citeFilter upper parseInt cites key field true cs c =
      .ok (Coll.fresh "RecordCollection" (c.items.filter (fun r => decide (r ∉ c.items.filter p))) c.name) := by
    unfold citeFilter; rw [hloop]
    simp only [bind, Except.bind, if_true, foldl_exclude, List.nil_append]; rfl
  refine ⟨_, _, ha, hb, ⟨PSet.nodup_ofList _, Dict.WF_nil⟩, ⟨PSet.nodup_ofList _, Dict.WF_nil⟩, rfl, rfl, fun r => ?_, fun r => ?_⟩
  · show r ∈ PSet.ofList (c.items.filter p) ↔ _
    rw [PSet.mem_ofList, List.mem_filter, (hp r).2]
  · show r ∈ PSet.ofList (c.items.filter (fun r => decide (r ∉ c.items.filter p))) ↔ r ∈ c.items ∧ r ∉ PSet.ofList (c.items.filter p)
    rw [PSet.mem_ofList, PSet.mem_ofList, List.mem_filter, decide_eq_true_eq]

/-- C24: the claim as documented, when no citation has the searched field set to `None`. Missing from the full claim: records that list
such a citation, see `C24_none_field_hides_match`. -/
theorem C24_citeFilter_partial (upper : Str → Str) (parseInt : Str → Option Int) (cites : ρ → Option (List Cite)) (key : Str) (field : Field)
    (cs : Bool) (c : Coll ρ κ ε) (hy : field = .year → parseInt key ≠ none)
    (hb : ∀ r ∈ c.items, ∀ d ∈ (cites r).getD [], ¬ Blocks field d) :
    ∃ a b, citeFilter upper parseInt cites key field false cs c = .ok a ∧ citeFilter upper parseInt cites key field true cs c = .ok b ∧
      (∀ r, r ∈ a.items ↔ r ∈ c.items ∧ ∃ d ∈ (cites r).getD [], FieldMatch upper parseInt key cs field d) ∧
      (∀ r, r ∈ b.items ↔ r ∈ c.items ∧ r ∉ a.items) := by
  obtain ⟨a, b, h1, h2, _, _, _, _, h3, h4⟩ := C24_citeFilter upper parseInt cites key field cs c hy
  refine ⟨a, b, h1, h2, fun r => ?_, h4⟩
  rw [h3]
  constructor
  · rintro ⟨hr, pre, d, post, he, hm, _⟩
    exact ⟨hr, d, by rw [he]; simp, hm⟩
  · rintro ⟨hr, d, hd, hm⟩
    obtain ⟨pre, post, he⟩ := List.append_of_mem hd
    refine ⟨hr, pre, d, post, he, hm, fun x hx => hb r hr x ?_⟩
    rw [he]; simp [hx]

/-- C24, the failure: a citation without a journal listed first hides every later match. -/
theorem C24_none_field_hides_match (upper : Str → Str) (parseInt : Str → Option Int) (key : Str) (cs : Bool) (c : Cite) (rest : List Cite)
    (hc : c.journal = some none) (cites : ρ → Option (List Cite)) (r : ρ) (hr : cites r = some (c :: rest)) (col : Coll ρ κ ε) :
    ∃ a, citeFilter upper parseInt cites key .journal false cs col = .ok a ∧ r ∉ a.items := by
  obtain ⟨a, _, h1, _, _, _, _, _, h3, _⟩ := C24_citeFilter upper parseInt cites key .journal cs col (by simp)
  refine ⟨a, h1, ?_⟩
  rw [h3]
  rintro ⟨_, pre, d, post, he, ⟨j, hj, _⟩, hp⟩
  rw [hr] at he
  cases pre with
  | nil =>
    simp only [Option.getD_some, List.nil_append, List.cons.injEq] at he
    rw [← he.1, hc] at hj; cases hj
  | cons x pre =>
    simp only [Option.getD_some, List.cons_append, List.cons.injEq] at he
    exact hp x (by simp) (he.1 ▸ hc)

/-- C24, the failure: searching years for a key that is not a number raises as soon as a record has citations, also for the empty
key, which is documented to match everything. -/
theorem C24_year_raises (upper : Str → Str) (parseInt : Str → Option Int) (cites : ρ → Option (List Cite)) (key : Str) (rev cs : Bool)
    (c : Coll ρ κ ε) (hk : parseInt key = none) (hex : ∃ r ∈ c.items, ∃ d ds, cites r = some (d :: ds)) :
    citeFilter upper parseInt cites key .year rev cs c = .error .valueError := by
  have : ∀ (l acc : List ρ), (∃ r ∈ l, ∃ d ds, cites r = some (d :: ds)) → l.foldlM (fun acc r => do
      if ← matchRecord (test upper parseInt key .year cs) (cites r) then return acc ++ [r] else return acc) acc =
      (.error .valueError : Except FErr (List ρ)) := by
    intro l
    induction l with
    | nil => rintro _ ⟨r, hr, _⟩; simp at hr
    | cons r l ih =>
      intro acc hex
      rw [List.foldlM_cons]
      rcases hc : cites r with _ | _ | ⟨d, ds⟩
      · obtain ⟨r', hr', d, ds, h⟩ := hex
        rcases List.mem_cons.1 hr' with rfl | hr'
        · rw [hc] at h; cases h
        · exact ih acc ⟨r', hr', d, ds, h⟩
      · obtain ⟨r', hr', d, ds, h⟩ := hex
        rcases List.mem_cons.1 hr' with rfl | hr'
        · rw [hc] at h; cases h
        · exact ih acc ⟨r', hr', d, ds, h⟩
      · simp only [matchRecord, matchLoop, test, hk, bind, Except.bind]
  unfold citeFilter
  rw [this _ _ hex]
  rfl

private def pI (s : Str) : Option Int := if s = "1990".toList then some 1990 else none
private def up (s : Str) : Str := s.map Char.toUpper
private def itemsOf (x : Except FErr (Coll Nat Nat Nat)) : Option (List Nat) := x.toOption.map Coll.items
example : itemsOf (citeFilter up pI ci "b".toList .author false false cC) = some [0, 1] ∧
    itemsOf (citeFilter up pI ci "k".toList .all true false cC) = some [0, 2] ∧
    itemsOf (citeFilter up pI ci "k".toList .journal false false cC) = some [] ∧
    itemsOf (citeFilter up pI ci "1990".toList .year false false cC) = some [0, 1] ∧
    itemsOf (citeFilter up pI ci "".toList .year false false cC) = none := by decide

/-! ## C56 -/

/-- C56: afterwards the collection holds exactly the records of that publication type (or, inverted, of another), without the bad ones
when asked; when a record looked at has no publication type the call raises and only the bad records are gone. -/
theorem C56_dropNonJournals (upper : Str → Str) (pubType : ρ → Option Str) (isBad : ρ → Bool) (pt : Str) (dropBad invert : Bool)
    (c : Coll ρ κ ε) (hc : c.WF) :
    let res := dropNonJournals upper pubType isBad pt dropBad invert c
    let considered := fun r => r ∈ c.items ∧ (dropBad = true → isBad r = false)
    res.1.WF ∧ res.1.name = c.name ∧ (res.2 = true ↔ ∃ r, considered r ∧ pubType r = none) ∧
      (∀ r, r ∈ res.1.items ↔ considered r ∧ (res.2 = false → (pubType r = some (upper pt) ↔ invert = false))) := by
  have hd : ∃ d : Coll ρ κ ε, d = (if dropBad then Coll.dropBadEntries isBad c else c) ∧ d.WF ∧ d.name = c.name ∧
      ∀ r, r ∈ d.items ↔ r ∈ c.items ∧ (dropBad = true → isBad r = false) := by
    refine ⟨_, rfl, ?_⟩
    cases dropBad
    · simp only [Bool.false_eq_true, if_false, false_implies, and_true]
      exact ⟨hc, trivial, fun _ => trivial⟩
    · refine ⟨⟨PSet.nodup_ofList _, Dict.WF_nil⟩, rfl, fun r => ?_⟩
      show r ∈ PSet.ofList (c.items.filter (fun i => !isBad i)) ↔ _
      rw [PSet.mem_ofList, List.mem_filter]
      simp
  obtain ⟨d, hde, hd1, hd2, hd3⟩ := hd
  have hres : dropNonJournals upper pubType isBad pt dropBad invert c =
      if d.items.any (fun r => (pubType r).isNone) then (d, true)
      else if invert then ({ d with items := d.items.filter (fun r => pubType r ≠ some (upper pt)) }, false)
      else ({ d with items := d.items.filter (fun r => pubType r = some (upper pt)) }, false) := by
    rw [hde]; rfl
  simp only [hres]
  by_cases hany : d.items.any (fun r => (pubType r).isNone) = true
  · simp only [hany, if_true]
    refine ⟨hd1, hd2, ?_, fun r => by rw [hd3]; simp⟩
    simp only [true_iff]
    rw [List.any_eq_true] at hany
    obtain ⟨r, hr, hn⟩ := hany
    exact ⟨r, (hd3 r).1 hr, by simpa using hn⟩
  · have hany' := Bool.eq_false_iff.2 hany
    simp only [hany', Bool.false_eq_true, if_false]
    have hno : ¬ ∃ r, (r ∈ c.items ∧ (dropBad = true → isBad r = false)) ∧ pubType r = none := by
      rintro ⟨r, hr, hn⟩
      apply hany
      rw [List.any_eq_true]
      exact ⟨r, (hd3 r).2 hr, by simp [hn]⟩
    cases invert
    · simp only [Bool.false_eq_true, if_false]
      refine ⟨⟨hd1.1.filter _, hd1.2⟩, hd2, by simp only [Bool.false_eq_true, false_iff]; exact hno, fun r => ?_⟩
      rw [List.mem_filter, hd3]; simp
    · simp only [if_true]
      refine ⟨⟨hd1.1.filter _, hd1.2⟩, hd2, by simp only [Bool.false_eq_true, false_iff]; exact hno, fun r => ?_⟩
      rw [List.mem_filter, hd3]; simp

private def ptOf (n : Nat) : Option Str := if n = 4 then none else if n = 1 then some "B".toList else some "J".toList
example : (dropNonJournals up ptOf (fun n => decide (n = 4)) "j".toList true false cY).1.items = [0, 2, 3] ∧
    (dropNonJournals up ptOf (fun n => decide (n = 4)) "j".toList true true cY).1.items = [1] ∧
    (dropNonJournals up ptOf (fun n => decide (n = 4)) "j".toList false true cY).2 = true := by decide

end Verif.Props
