import Verif.Spec.FileTables
import Verif.Model.FileTables
import Verif.Props.LocalCites
import Verif.Props.Derived
import Verif.Props.Rpys
import Mathlib.Order.Bounds.Basic

/-! # C122: from a Web of Science file to two-mode networks, time series, co-occurrence counts and RPYS tables -/
set_option autoImplicit false
set_option linter.unusedSimpArgs false
namespace Verif.Props.FileTables
open Verif.Py Verif.Model.WosFields Verif.Model.RecordAccess Verif.Model.Pipeline Verif.Model.CiteParse Verif.Spec.Pipeline Verif.Spec.WhoCites Verif.Spec.Derived
  Verif.Spec.FileTables Verif.Spec Verif.Lemmas.Pipeline Verif.Lemmas.WhoCites Verif.Props.CiteParse Verif.Props.Pipeline Verif.Props.WhoCites
open Verif.Model.Series (FieldVal Timed)

section
variable {W : World} {order : List Model.Wos.Rec → List Model.Wos.Rec} (before : Model.Wos.Rec → List (Op String FVal)) {origin : Str} {papers : List Paper}

/-- What is read when a paper has these items. -/
def listed (l : List Str) : Option FVal := if l = [] then none else some (.texts l)

theorem items_value (h : Setting W order) (hf : FileOk W.ws origin papers) {k : String} {items : Paper → List Str} (hi : Items papers k items) {r : Model.Wos.Rec}
    (hr : r ∈ order (papers.map toRec)) : value W before k r = .ok (listed (items r.fields)) := by
  obtain ⟨h1, h2, h3⟩ := of_order h hf hr
  obtain ⟨tag, long, hw, hk, ⟨ht, hl⟩ | ⟨ht, hl⟩⟩ := hi.have_items
  · have := lines_value before h1 tag long k hw hk ht
    rw [← h2] at this
    rw [this, hl _ h3]; rfl
  · obtain ⟨i1, i2, i3⟩ := hl _ h3
    have := value_eq W before h1 tag long k hw hk
    rw [← h2] at this
    rw [this]
    unfold listed
    by_cases hl : linesOf r.fields tag = []
    · rw [if_pos hl, if_pos (i1.2 hl)]
    · rw [if_neg hl, if_neg (fun e => hl (i1.1 e)), WosFields.C69_lists W.prims tag.toList (List.mem_map_of_mem ht) (items r.fields) _
        (fun e => hl (i1.1 e)) i3 i2]
      rfl

theorem vals_listed (l : List Str) : vals ((listed l).map fieldVal) = l.map FVal.text := by
  unfold listed
  by_cases hl : l = []
  · rw [if_pos hl, hl]; rfl
  · rw [if_neg hl]; rfl

theorem pairs_value (h : Setting W order) (hf : FileOk W.ws origin papers) {k1 k2 : String} {i1 i2 : Paper → List Str} (h1 : Items papers k1 i1) (h2 : Items papers k2 i2) :
    (order (papers.map toRec)).mapM (fun r => do return (← value W before k1 r, ← value W before k2 r)) =
      .ok ((order (papers.map toRec)).map (fun r => (listed (i1 r.fields), listed (i2 r.fields)))) := by
  apply Lemmas.Pipeline.mapM_ok
  intro r hr
  rw [items_value before h hf h1 hr, items_value before h hf h2 hr]
  rfl

/-- **C122, two-mode networks.** A value of the first tag and one of the second are joined as often as a paper has both, and the nodes are the values. -/
theorem C122_two_mode (h : Setting W order) (hf : FileOk W.ws origin papers) {k1 k2 : String} {i1 i2 : Paper → List Str} (h1 : Items papers k1 i1) (h2 : Items papers k2 i2)
    (hk : k1 ≠ k2) (directed nodeCount edgeWeight recordType : Bool) :
    ∃ g, Model.FileTables.twoMode W before order directed nodeCount edgeWeight recordType k1 k2 (fileText origin papers) = some (.ok g) ∧ g.directed = directed ∧
      (∀ u v, g.edge? u v = edgeFor edgeWeight (papers.map (fun p => crossShared directed (i1 p) (i2 p) u v)).sum) ∧
      ∀ n, g.hasNode n = true ↔ ∃ p ∈ papers, n ∈ i1 p ∨ n ∈ i2 p := by
  unfold Model.FileTables.twoMode
  rw [records_eq W order h.nl h.E hf]
  simp only [Option.map_some]
  rw [pairs_value before h hf h1 h2]
  obtain ⟨_, g2, g3, g4⟩ := Verif.Props.C13_edges_nodes directed nodeCount edgeWeight recordType nodeText nodeText
    (fun (v : Option FVal × Option FVal) t => (if t = k1 then v.1 else v.2).map fieldVal) k1 k2 ((order (papers.map toRec)).map (fun r => (listed (i1 r.fields), listed (i2 r.fields))))
  have hn1 : ∀ l l' : List Str, Verif.Props.names nodeText (fun (v : Option FVal × Option FVal) t => (if t = k1 then v.1 else v.2).map fieldVal) [k1] (listed l, listed l') = l := by
    intro l l'
    unfold Verif.Props.names
    simp only [List.flatMap_cons, List.flatMap_nil, List.append_nil, if_true]
    rw [vals_listed, List.map_map]
    exact List.map_id l
  have hn2 : ∀ l l' : List Str, Verif.Props.names nodeText (fun (v : Option FVal × Option FVal) t => (if t = k1 then v.1 else v.2).map fieldVal) [k2] (listed l, listed l') = l' := by
    intro l l'
    unfold Verif.Props.names
    simp only [List.flatMap_cons, List.flatMap_nil, List.append_nil, if_neg (Ne.symm hk)]
    rw [vals_listed, List.map_map]
    exact List.map_id l'
  refine ⟨_, rfl, g2, fun u v => ?_, fun n => ?_⟩
  · refine (g3 u v).trans ?_
    simp only [List.map_map, Function.comp_def, hn1, hn2]
    exact congrArg _ (sum_order (papers := papers) h (fun r => crossShared directed (i1 r.fields) (i2 r.fields) u v))
  · refine (g4 n).trans ?_
    simp only [List.mem_map, exists_exists_and_eq_and, hn1, hn2]
    constructor
    · rintro ⟨r, hr, hn⟩
      exact ⟨r.fields, (of_order h hf hr).2.2, hn⟩
    · rintro ⟨p, hp, hn⟩
      exact ⟨toRec p, (h.perm _).mem_iff.2 (List.mem_map_of_mem hp), hn⟩

/-- In words: when no paper has a value twice and none is a value of both tags, the weight between a value of the first tag and one of the second is the number of papers
that have both. -/
theorem C122_two_mode_papers (h : Setting W order) (hf : FileOk W.ws origin papers) {k1 k2 : String} {i1 i2 : Paper → List Str} (h1 : Items papers k1 i1)
    (h2 : Items papers k2 i2) (hk : k1 ≠ k2) (hn : ∀ p ∈ papers, (i1 p).Nodup ∧ (i2 p).Nodup) (hd : ∀ p ∈ papers, ∀ q ∈ papers, ∀ a ∈ i1 p, a ∉ i2 q)
    (directed nodeCount recordType : Bool) :
    ∃ g, Model.FileTables.twoMode W before order directed nodeCount true recordType k1 k2 (fileText origin papers) = some (.ok g) ∧
      ∀ p ∈ papers, ∀ q ∈ papers, ∀ a ∈ i1 p, ∀ b ∈ i2 q, ∀ n : Nat, n = papers.countP (fun p => decide (a ∈ i1 p ∧ b ∈ i2 p)) →
        g.edge? a b = if n = 0 then none else some (some n) := by
  obtain ⟨g, g1, _, g3, _⟩ := C122_two_mode before h hf h1 h2 hk directed nodeCount true recordType
  refine ⟨g, g1, fun p hp q hq a ha b hb n hn' => ?_⟩
  rw [g3]
  have : (papers.map (fun p => crossShared directed (i1 p) (i2 p) a b)).sum = n := by
    rw [hn', ← sum_ite]
    congr 1
    apply List.map_congr_left
    intro t ht
    have hab : a ≠ b := fun e => hd p hp q hq a ha (e ▸ hb)
    have hb0 : (i1 t).count b = 0 := List.count_eq_zero.2 (fun hb' => hd t ht q hq b hb' hb)
    have hc : crossShared directed (i1 t) (i2 t) a b = (i1 t).count a * (i2 t).count b := by
      have hb : (instBEqOfDecidableEq : BEq Str) = List.instBEq := lawful_beq_subsingleton _ _
      unfold crossShared
      rw [hb, hb0]
      split <;> simp
    rw [hc]
    by_cases h1 : a ∈ i1 t
    · by_cases h2 : b ∈ i2 t
      · rw [if_pos ⟨h1, h2⟩, List.count_eq_one_of_mem (hn t ht).1 h1, List.count_eq_one_of_mem (hn t ht).2 h2]
      · rw [if_neg (fun e => h2 e.2), List.count_eq_zero.2 h2]; simp
    · rw [if_neg (fun e => h1 e.1), List.count_eq_zero.2 h1]; simp
  rw [this]
  rfl

theorem count_text (l : List Str) (a : Str) : (l.map FVal.text).count (FVal.text a) = l.count a := by
  induction l with
  | nil => rfl
  | cons x l ih =>
    simp only [List.map_cons, List.count_cons, ih]
    by_cases hx : x = a
    · subst hx; simp
    · rw [if_neg (by simp [hx]), if_neg (by simp [hx])]

/-- **C122, co-occurrence.** The keys are the values of the first tag; under a key are the values of the second tag that a paper has with it, with the number of times. -/
theorem C122_cooccurrence (h : Setting W order) (hf : FileOk W.ws origin papers) {k1 k2 : String} {i1 i2 : Paper → List Str} (h1 : Items papers k1 i1)
    (h2 : Items papers k2 i2) :
    ∃ d, Model.FileTables.cooccurrences W before order k1 k2 (fileText origin papers) = some (.ok d) ∧ Dict.WF d ∧
      (∀ k, k ∈ Dict.keys d ↔ ∃ p ∈ papers, ∃ a ∈ i1 p, k = .text a) ∧
      ∀ a inner, d.get? (.text a) = some inner → Dict.WF inner ∧ ∀ b n, inner.get? (.text b) = some n ↔
        n = (papers.map (fun p => (i1 p).count a * (i2 p).count b)).sum ∧ 0 < n := by
  unfold Model.FileTables.cooccurrences
  rw [records_eq W order h.nl h.E hf]
  simp only [Option.map_some]
  rw [pairs_value before h hf h1 h2]
  obtain ⟨d1, d2, d3⟩ := Verif.Props.C11_cooccurrence (fun (v : Option FVal × Option FVal) (counted : Bool) => (if counted then v.2 else v.1).map fieldVal)
    ((order (papers.map toRec)).map (fun r => (listed (i1 r.fields), listed (i2 r.fields)))) false [true]
  refine ⟨_, rfl, d1, fun k => ?_, fun a inner ha => ?_⟩
  · refine (d2 k).trans ?_
    simp only [List.mem_map, exists_exists_and_eq_and, Bool.false_eq_true, if_false, vals_listed]
    constructor
    · rintro ⟨r, hr, a, ha, rfl⟩
      exact ⟨r.fields, (of_order h hf hr).2.2, a, ha, rfl⟩
    · rintro ⟨p, hp, a, ha, rfl⟩
      exact ⟨toRec p, (h.perm _).mem_iff.2 (List.mem_map_of_mem hp), a, ha, rfl⟩
  · obtain ⟨w1, w2⟩ := d3 _ inner ha
    refine ⟨w1, fun b n => ?_⟩
    rw [w2]
    have hinj : Function.Injective FVal.text := fun x y e => by injection e
    have : Spec.cooccurrences (fun (v : Option FVal × Option FVal) (counted : Bool) => (if counted then v.2 else v.1).map fieldVal)
        ((order (papers.map toRec)).map (fun r => (listed (i1 r.fields), listed (i2 r.fields)))) false [true] (.text a) (.text b) =
        (papers.map (fun p => (i1 p).count a * (i2 p).count b)).sum := by
      unfold Spec.cooccurrences
      rw [List.map_map]
      refine Eq.trans ?_ (sum_order (papers := papers) h (fun r => (i1 r.fields).count a * (i2 r.fields).count b))
      congr 1
      apply List.map_congr_left
      intro r _
      simp only [Function.comp, Bool.false_eq_true, if_false, if_true, vals_listed, List.map_cons, List.map_nil, List.sum_cons, List.sum_nil, Nat.add_zero]
      rw [count_text, count_text]
    rw [this]

theorem year_unique {p : Paper} {y z : Nat} (hy : OfYear p y) (hz : OfYear p z) : y = z := by
  have := hy.2.2.symm.trans hz.2.2
  have := congrArg readNat (Option.some.inj this)
  rwa [readNat_showNat, readNat_showNat] at this

open Classical in
/-- The year of a paper. -/
noncomputable def yr (p : Paper) : Option Nat := if h : ∃ y, OfYear p y then some h.choose else none

theorem yr_iff {p : Paper} {y : Nat} : yr p = some y ↔ OfYear p y := by
  unfold yr
  constructor
  · intro h
    split at h
    · next hx => rw [← Option.some.inj h]; exact hx.choose_spec
    · cases h
  · intro h
    have hx : ∃ y, OfYear p y := ⟨y, h⟩
    rw [dif_pos hx, year_unique hx.choose_spec h]

theorem year_value (h : Setting W order) (hf : FileOk W.ws origin papers) (hint : ∀ n : Nat, W.prims.int (showNat n) = some (n : Int)) (hy : YearsOk papers)
    {r : Model.Wos.Rec} (hr : r ∈ order (papers.map toRec)) : value W before "year" r = .ok ((yr r.fields).map (fun y : Nat => FVal.num (y : Int))) := by
  obtain ⟨h1, h2, h3⟩ := of_order h hf hr
  have hv := value_eq W before h1 "PY" "year" "year" (by unfold Spec.TagTable.Wos; decide +kernel) (.inr rfl)
  rw [← h2] at hv
  rw [hv]
  rcases hy _ h3 with hl | ⟨y, a1, a2, a3⟩
  · have : yr r.fields = none := by
      cases hx : yr r.fields with
      | none => rfl
      | some z => have := (yr_iff.1 hx).2.2; rw [hl] at this; cases this
    rw [if_pos hl, this]; rfl
  · rw [yr_iff.2 ⟨a1, a2, a3⟩]
    cases hl : linesOf r.fields "PY" with
    | nil => rw [hl] at a3; cases a3
    | cons v rest =>
      rw [hl] at a3
      obtain rfl : v = showNat y := by simpa using a3
      rw [if_neg (by simp), WosFields.C69_year_digits W.prims hint y ⟨a1, a2⟩]
      rfl

theorem years_value (h : Setting W order) (hf : FileOk W.ws origin papers) (hint : ∀ n : Nat, W.prims.int (showNat n) = some (n : Int)) (hy : YearsOk papers)
    {k : String} {items : Paper → List Str} (hi : Items papers k items) :
    (order (papers.map toRec)).mapM (fun r => do return (← value W before "year" r, ← value W before k r)) =
      .ok ((order (papers.map toRec)).map (fun r => ((yr r.fields).map (fun y : Nat => FVal.num (y : Int)), listed (items r.fields)))) := by
  apply Lemmas.Pipeline.mapM_ok
  intro r hr
  rw [year_value before h hf hint hy hr, items_value before h hf hi hr]
  rfl

theorem yearNat_map (o : Option Nat) : Model.FileTables.yearNat (o.map (fun y : Nat => FVal.num (y : Int))) = o := by cases o <;> rfl

theorem sum_pos {α : Type} {f : α → Nat} {l : List α} : 0 < (l.map f).sum ↔ ∃ a ∈ l, 0 < f a := by
  have := (List.sum_eq_zero_iff_forall_eq_nat (xs := l.map f)).not
  rw [Nat.pos_iff_ne_zero, ne_eq, this]
  simp [Nat.pos_iff_ne_zero]

/-- The text of a value. -/
def str : FVal → Str
  | .text s => s
  | _ => []

open Classical in
/-- **C122, time series.** Each value is listed once for each year in which a paper has it, in the order of the years; in pandas form with the number of times. -/
theorem C122_time_series (h : Setting W order) (hf : FileOk W.ws origin papers) (hint : ∀ n : Nat, W.prims.int (showNat n) = some (n : Int)) (hy : YearsOk papers)
    {k : String} {items : Paper → List Str} (hi : Items papers k items) (gf : Bool) :
    ∃ l : List (Str × Nat), l.Nodup ∧ (∀ a y, (a, y) ∈ l ↔ ∃ p ∈ papers, OfYear p y ∧ a ∈ items p) ∧
      (gf = true → l.Pairwise (fun a b => b.2 ≤ a.2)) ∧ (gf = false → l.Pairwise (fun a b => a.2 ≤ b.2)) ∧
      Model.FileTables.timeSeries W before order k true gf false none (fileText origin papers) = some (.ok (.pairs (l.map (fun e => (FVal.text e.1, e.2))))) ∧
      ∀ gy, Model.FileTables.timeSeries W before order k gy gf true none (fileText origin papers) = some (.ok (.pandas (l.map (fun e => .text e.1))
        (l.map (fun e => (papers.map (fun p => if OfYear p e.2 then (items p).count e.1 else 0)).sum)) (l.map Prod.snd))) := by
  obtain ⟨l, l1, l2, l3, l4, l5, _, l7⟩ := Verif.Props.C10_tag (fun v : Option FVal × Option FVal => Model.FileTables.yearNat v.1) (fun v => v.2.map fieldVal)
    ((order (papers.map toRec)).map (fun r => ((yr r.fields).map (fun y : Nat => FVal.num (y : Int)), listed (items r.fields)))) gf none
  have hocc : ∀ v y, occurrencesIn (fun v : Option FVal × Option FVal => Model.FileTables.yearNat v.1) (fun v => v.2.map fieldVal)
      ((order (papers.map toRec)).map (fun r => ((yr r.fields).map (fun y : Nat => FVal.num (y : Int)), listed (items r.fields)))) v y =
      (papers.map (fun p => if OfYear p y then ((items p).map FVal.text).count v else 0)).sum := by
    intro v y
    unfold occurrencesIn occurrences
    rw [sum_filter, List.map_map]
    refine Eq.trans ?_ (sum_order (papers := papers) h (fun r => if OfYear r.fields y then ((items r.fields).map FVal.text).count v else 0))
    congr 1
    apply List.map_congr_left
    intro r _
    simp only [Function.comp, yearNat_map, vals_listed, decide_eq_true_eq, yr_iff]
  have htext : ∀ v y, (v, y) ∈ l → ∃ p ∈ papers, OfYear p y ∧ v ∈ (items p).map FVal.text := by
    intro v y hv
    have := ((l3 v y).1 hv).1
    rw [hocc] at this
    obtain ⟨p, hp, hpos⟩ := sum_pos.1 this
    by_cases ho : OfYear p y
    · rw [if_pos ho] at hpos
      exact ⟨p, hp, ho, List.count_pos_iff.1 hpos⟩
    · rw [if_neg ho] at hpos; cases hpos
  have hid : l = (l.map (fun e => (str e.1, e.2))).map (fun e => (FVal.text e.1, e.2)) := by
    rw [List.map_map]
    conv => lhs; rw [← List.map_id l]
    apply List.map_congr_left
    rintro ⟨v, y⟩ hv
    obtain ⟨p, _, _, hm⟩ := htext v y hv
    obtain ⟨a, _, rfl⟩ := List.mem_map.1 hm
    rfl
  generalize hl' : l.map (fun e => (str e.1, e.2)) = l' at hid
  subst hid
  have hrun : ∀ gy pm, Model.FileTables.timeSeries W before order k gy gf pm none (fileText origin papers) = some (.ok (Model.Series.timeSeriesTag
      (fun v : Option FVal × Option FVal => Model.FileTables.yearNat v.1) (fun v => v.2.map fieldVal)
      ((order (papers.map toRec)).map (fun r => ((yr r.fields).map (fun y : Nat => FVal.num (y : Int)), listed (items r.fields)))) gy gf pm none)) := by
    intro gy pm
    unfold Model.FileTables.timeSeries
    rw [records_eq W order h.nl h.E hf]
    simp only [Option.map_some]
    rw [years_value before h hf hint hy hi]
    rfl
  refine ⟨l', l2.of_map _, fun a y => ?_, fun hg => ?_, fun hg => ?_, ?_, fun gy => ?_⟩
  · have hmem : (a, y) ∈ l' ↔ (FVal.text a, y) ∈ l'.map (fun e => (FVal.text e.1, e.2)) := by
      simp [List.mem_map]
    rw [hmem]
    constructor
    · intro hm
      obtain ⟨p, hp, ho, hv⟩ := htext _ _ hm
      exact ⟨p, hp, ho, by simpa using hv⟩
    · rintro ⟨p, hp, ho, ha⟩
      refine (l3 _ _).2 ⟨?_, by intro x hx; cases hx⟩
      rw [hocc]
      refine sum_pos.2 ⟨p, hp, ?_⟩
      rw [if_pos ho, count_text]
      exact List.count_pos_iff.2 ha
  · have := l4 hg; rw [List.pairwise_map] at this; exact this
  · have := l5 hg; rw [List.pairwise_map] at this; exact this
  · rw [hrun, l1]
  · rw [hrun, l7]
    simp only [List.map_map, Function.comp_def, hocc, count_text]

theorem work_year (hT : Texts W) {work : Str → Model.Citation.Cite} (hw : Reads W work) {r : Ref} (hok : r.Ok) : (work r.line).year = some (some (r.year : Int)) := by
  obtain ⟨q, q1, q2, _⟩ := hw.parsed r.line
  obtain ⟨q', e1, _, _, e2, _⟩ := read_vals hT.upper (refVals r) r hok (by
      show some (r.author.filter _) = some r.author
      rw [no_filter _ _ hok.noComma.1]) rfl (Or.inl rfl) (present_self r.volume (fun s hs => (hok.volume s hs).1))
    (present_self r.page (fun s hs => (hok.page s hs).1)) (present_self r.doi (fun s hs => (hok.doi s hs).1))
  rw [← line_eq r hok, q1] at e1
  obtain rfl := Option.some.inj e1
  rw [← q2]; exact e2

/-- What `rpys` reads of a paper. -/
noncomputable def rrec (refs : Paper → List Ref) (p : Paper) : Model.Rpys.Rec :=
  ⟨if refs p = [] then none else some ((refs p).map (fun r => some (r.year : Int))), (yr p).map (fun y : Nat => (y : Int))⟩

open Classical in
theorem rrec_cites (refs : Paper → List Ref) (p : Paper) (y : Int) : Verif.Props.citesOfYear (rrec refs p) y =
    if ∃ z : Nat, OfYear p z ∧ (z : Int) < y + 2 then 0 else (refs p).countP (fun r => decide ((r.year : Int) = y)) := by
  unfold Verif.Props.citesOfYear rrec
  by_cases hr : refs p = []
  · rw [if_pos hr]
    simp [hr]
  · rw [if_neg hr]
    dsimp only
    refine if_congr ?_ rfl ?_
    · constructor
      · rintro ⟨z, hz, hl⟩
        obtain ⟨n, hn, rfl⟩ := Option.map_eq_some_iff.1 hz
        exact ⟨n, yr_iff.1 hn, hl⟩
      · rintro ⟨z, hz, hl⟩
        exact ⟨z, by rw [yr_iff.2 hz]; rfl, hl⟩
    · rw [List.count, List.countP_map]
      apply List.countP_congr
      intro r _
      simp

theorem rpys_recs (h : Setting W order) (hf : FileOk W.ws origin papers) (hT : Texts W) (hy : YearsOk papers) (refs : Paper → List Ref)
    (hrefs : ∀ p ∈ papers, linesOf p "CR" = (refs p).map Ref.line ∧ ∀ r ∈ refs p, r.Ok) :
    (order (papers.map toRec)).mapM (fun r => do return Model.FileTables.rpysRec W (← value W before "year" r) (← value W before "citations" r)) =
      .ok ((order (papers.map toRec)).map (fun r => rrec refs r.fields)) := by
  obtain ⟨work, hw⟩ := reads hT
  apply Lemmas.Pipeline.mapM_ok
  intro r hr
  obtain ⟨h1, h2, h3⟩ := of_order h hf hr
  have hc := LocalCites.cites_eq before hw h1
  rw [← h2] at hc
  rw [year_value before h hf hT.int hy hr]
  cases hv : value W before "citations" r with
  | error e => rw [hv] at hc; cases hc
  | ok v =>
    rw [hv] at hc
    have hcs : citations W v = cs work r.fields := Except.ok.inj hc
    show Except.ok (Model.FileTables.rpysRec W _ v) = _
    congr 1
    unfold Model.FileTables.rpysRec rrec
    rw [hcs]
    obtain ⟨e1, e2⟩ := hrefs _ h3
    congr 1
    · unfold cs
      by_cases hn : refs r.fields = []
      · rw [if_pos hn, if_pos (by rw [e1, hn]; rfl)]; rfl
      · rw [if_neg hn, if_neg (by rw [e1]; simpa using hn), e1]
        simp only [Option.map_some, List.map_map]
        congr 1
        apply List.map_congr_left
        intro q hq
        simp [Function.comp, work_year hT hw (e2 q hq)]
    · cases yr r.fields <;> rfl

/-- **C122, RPYS.** The table of the file has each year from the first to the last, without the dropped ones, exactly once, with the number of references to works of
that year in papers two years younger or without a year, how far that is from the median of the five years around it, and its rank. -/
theorem C122_rpys (h : Setting W order) (hf : FileOk W.ws origin papers) (hT : Texts W) (hy : YearsOk papers) (refs : Paper → List Ref)
    (hrefs : ∀ p ∈ papers, linesOf p "CR" = (refs p).map Ref.line ∧ ∀ r ∈ refs p, r.Ok)
    (years : List Int → List Int) (hyears : ∀ l, (years l).Perm l) (lo hi : Int) (minYear maxYear : Option Int) (drop : Model.Rpys.DropYears) (rankEmpty : Bool)
    (hlo : minYear = some lo ∨ minYear = none ∧ 1000 < lo ∧ IsLeast { y | 0 < citedIn papers refs y ∧ ∀ M, maxYear = some M → y ≤ M + 2 } lo)
    (hhi : maxYear = some hi ∨ maxYear = none ∧ hi < 2100 ∧ IsGreatest { y | 0 < citedIn papers refs y ∧ ∀ m, minYear = some m → m - 2 ≤ y } hi)
    (hdrop : ∀ y, drop ≠ .one y) :
    ∃ t, Model.FileTables.rpys W before order years minYear maxYear drop rankEmpty (fileText origin papers) = some (.ok (.ok t)) ∧
      t.year.Nodup ∧ (∀ y, y ∈ t.year ↔ (lo ≤ y ∧ y ≤ hi) ∧ ∀ l, drop = .many l → y ∉ l) ∧
      t.count = t.year.map (citedIn papers refs) ∧
      ∃ dev : Int → Int, t.dev = t.year.map dev ∧
        (∀ y ∈ t.year, ∃ m, Verif.Props.IsMedian ([y - 2, y - 1, y, y + 1, y + 2].map (citedIn papers refs)) m ∧ dev y = (citedIn papers refs y : Int) - m) ∧
        ∃ rank : Int → Nat, t.rank = t.year.map (fun y => if citedIn papers refs y = 0 ∧ rankEmpty = false then 0 else rank y) ∧
          (t.year.map rank).Perm (List.range' 1 t.year.length) ∧ ∀ y ∈ t.year, ∀ z ∈ t.year, dev y < dev z → rank y < rank z := by
  have hcit : Verif.Props.timesCited ((order (papers.map toRec)).map (fun r => rrec refs r.fields)) = citedIn papers refs := by
    funext y
    unfold Verif.Props.timesCited citedIn
    rw [List.map_map]
    refine Eq.trans (sum_order (papers := papers) h (fun r => Verif.Props.citesOfYear (rrec refs r.fields) y)) ?_
    congr 1
    apply List.map_congr_left
    intro p _
    exact rrec_cites refs p y
  have hrun : Model.FileTables.rpys W before order years minYear maxYear drop rankEmpty (fileText origin papers) =
      some (.ok (Model.Rpys.rpys years minYear maxYear drop rankEmpty ((order (papers.map toRec)).map (fun r => rrec refs r.fields)))) := by
    unfold Model.FileTables.rpys
    rw [records_eq W order h.nl h.E hf]
    simp only [Option.map_some]
    rw [rpys_recs before h hf hT hy refs hrefs]
    rfl
  obtain ⟨t, t1, t2, t3, t4, t5⟩ := Verif.Props.C25_table years hyears minYear maxYear drop rankEmpty ((order (papers.map toRec)).map (fun r => rrec refs r.fields)) lo hi
    (by
      rcases hlo with e | ⟨e, _, l1, l2⟩
      · exact .inl e
      · refine .inr ⟨e, ⟨by rw [hcit]; exact l1.1, by rw [e]; (intro m hm; cases hm), l1.2⟩, fun y hy => l2 ⟨?_, hy.2.2⟩⟩
        have := hy.1; rw [hcit] at this; exact this)
    (by
      rcases hhi with e | ⟨e, _, l1, l2⟩
      · exact .inl e
      · refine .inr ⟨e, ⟨by rw [hcit]; exact l1.1, l1.2, by rw [e]; (intro m hm; cases hm)⟩, fun y hy => l2 ⟨?_, hy.2.1⟩⟩
        have := hy.1; rw [hcit] at this; exact this)
    (by
      intro e
      rcases hlo with e' | ⟨_, g, _⟩
      · rw [e] at e'; cases e'
      · exact g)
    (by
      intro e
      rcases hhi with e' | ⟨_, g, _⟩
      · rw [e] at e'; cases e'
      · exact g) hdrop
  rw [hcit] at t4 t5
  refine ⟨t, by rw [hrun, t1], t2, fun y => ?_, t4, t5⟩
  rw [t3]
  refine and_congr Iff.rfl ?_
  cases drop with
  | none => simp [Verif.Props.Dropped]
  | one z => exact absurd rfl (hdrop z)
  | many l => simp [Verif.Props.Dropped]

end

/-! ## Files -/

theorem authors : Items Pipeline.file "AF" (fun p => linesOf p "AF") :=
  ⟨"AF", "authorsFull", by unfold Spec.TagTable.Wos; decide +kernel, .inl rfl, .inl ⟨by decide, fun _ _ => rfl⟩⟩

theorem subjects : Items Pipeline.file "subjects" (fun p => if linesOf p "WC" = [] then [] else ["Physics".toList, "Applied Mathematics".toList]) :=
  ⟨"WC", "subjects", by unfold Spec.TagTable.Wos; decide +kernel, .inr rfl, .inr ⟨by decide, by decide +kernel⟩⟩

theorem years_file : YearsOk Pipeline.file := by
  intro p hp
  simp only [Pipeline.file, List.mem_cons, List.not_mem_nil, or_false] at hp
  rcases hp with rfl | rfl | rfl
  · exact .inr ⟨2001, by decide, by decide, by decide +kernel⟩
  · exact .inr ⟨2001, by decide, by decide, by decide +kernel⟩
  · exact .inl (by decide +kernel)

/-- Ada has one paper in physics, Cy none. -/
example : ∃ g, Model.FileTables.twoMode w (fun _ => [.item "AF"]) List.reverse true false true false "AF" "subjects" (fileText "FN Clarivate".toList Pipeline.file) = some (.ok g) ∧
    g.edge? "Ada".toList "Physics".toList = some (some 1) ∧ g.edge? "Physics".toList "Ada".toList = none ∧ g.hasNode "Cy".toList = true := by
  obtain ⟨g, h1, _, h3, h4⟩ := C122_two_mode (fun _ => [.item "AF"]) setting Pipeline.file_ok authors subjects (by decide) true false true false
  exact ⟨g, h1, (h3 _ _).trans (by decide +kernel), (h3 _ _).trans (by decide +kernel), (h4 _).2 (by decide +kernel)⟩

example : ∃ g, Model.FileTables.twoMode w (fun _ => []) List.reverse false false true true "AF" "subjects" (fileText "FN Clarivate".toList Pipeline.file) = some (.ok g) ∧
    g.edge? "Bob".toList "Applied Mathematics".toList = some (some 1) := by
  obtain ⟨g, h1, h2⟩ := C122_two_mode_papers (fun _ => []) setting Pipeline.file_ok authors subjects (by decide) (by decide +kernel) (by decide +kernel) false false true
  exact ⟨g, h1, (h2 Pipeline.file[0] (List.getElem_mem _) Pipeline.file[0] (List.getElem_mem _) _ (by decide +kernel) _ (by decide +kernel) 1 (by decide +kernel)).trans rfl⟩

/-- Ada wrote in 2001, and nobody in 2002. -/
example : ∃ l : List (Str × Nat), ("Ada".toList, 2001) ∈ l ∧ ("Ada".toList, 2002) ∉ l ∧
    Model.FileTables.timeSeries w (fun _ => []) List.reverse "AF" true true false none (fileText "FN Clarivate".toList Pipeline.file) =
      some (.ok (.pairs (l.map (fun e => (FVal.text e.1, e.2))))) := by
  obtain ⟨l, _, h2, _, _, h5, _⟩ := C122_time_series (fun _ => []) setting Pipeline.file_ok Derived.int_ok years_file authors true
  refine ⟨l, (h2 _ _).2 ⟨Pipeline.file[0], List.getElem_mem _, ⟨by decide, by decide, by decide +kernel⟩, by decide +kernel⟩, fun h => ?_, h5⟩
  obtain ⟨p, hp, ho, _⟩ := (h2 _ _).1 h
  exact absurd ho.2.2 ((by decide +kernel : ∀ p ∈ Pipeline.file, (linesOf p "PY").head? ≠ some (showNat 2002)) p hp)

/-- Ada and Bob are together on two papers. -/
example : ∃ d inner, Model.FileTables.cooccurrences w (fun _ => []) List.reverse "AF" "AF" (fileText "FN Clarivate".toList Pipeline.file) = some (.ok d) ∧
    d.get? (.text "Ada".toList) = some inner ∧ inner.get? (.text "Bob".toList) = some 2 := by
  obtain ⟨d, h1, _, h3, h4⟩ := C122_cooccurrence (fun _ => []) setting Pipeline.file_ok authors authors
  have := (h3 (.text "Ada".toList)).2 ⟨Pipeline.file[0], List.getElem_mem _, _, by decide +kernel, rfl⟩
  cases hi : d.get? (.text "Ada".toList) with
  | none => exact absurd this (by rw [Dict.mem_keys_iff, hi]; simp)
  | some inner => exact ⟨d, inner, h1, hi, ((h4 _ inner hi).2 _ 2).2 ⟨by decide +kernel, by decide⟩⟩

/-- The year 1998 is cited twice and is the last of the table. -/
example : ∃ t, Model.FileTables.rpys w (fun _ => []) List.reverse id (some 1995) none .none false (fileText "FN Clarivate".toList WhoCites.file) = some (.ok (.ok t)) ∧
    (1998 : Int) ∈ t.year ∧ (1999 : Int) ∉ t.year ∧ citedIn WhoCites.file LocalCites.refsIn 1998 = 2 := by
  have hrefs : ∀ p ∈ WhoCites.file, linesOf p "CR" = (LocalCites.refsIn p).map Ref.line ∧ ∀ r ∈ LocalCites.refsIn p, r.Ok := by
    intro p hp
    have hcy : cy.Ok := ⟨⟨'C', 'y', _, rfl, by decide⟩, by decide, by decide, by decide, by decide, by decide, by decide⟩
    have hag : again.Ok := ⟨⟨'N', 'u', _, rfl, by decide⟩, by decide, by decide, by decide, by decide, by decide, by decide⟩
    simp only [WhoCites.file, List.mem_cons, List.not_mem_nil, or_false] at hp
    rcases hp with rfl | rfl | rfl
    · exact ⟨by decide +kernel, fun r hr => by cases hr⟩
    · refine ⟨by decide +kernel, fun r hr => ?_⟩
      have hr' : r ∈ [WhoCites.listed, cy] := hr
      rcases List.mem_cons.1 hr' with rfl | hr'
      · exact listed_ok
      · rw [List.mem_singleton.1 hr']; exact hcy
    · refine ⟨by decide +kernel, fun r hr => ?_⟩
      have hr' : r ∈ [again] := hr
      rw [List.mem_singleton.1 hr']; exact hag
  have y1 : OfYear WhoCites.file[0] 1998 := ⟨by decide, by decide, by decide +kernel⟩
  have y2 : OfYear WhoCites.file[1] 2001 := ⟨by decide, by decide, by decide +kernel⟩
  have y3 : OfYear WhoCites.file[2] 2003 := ⟨by decide, by decide, by decide +kernel⟩
  have hyears : YearsOk WhoCites.file := by
    intro p hp
    simp only [WhoCites.file, List.mem_cons, List.not_mem_nil, or_false] at hp
    rcases hp with rfl | rfl | rfl
    · exact .inr ⟨_, y1⟩
    · exact .inr ⟨_, y2⟩
    · exact .inr ⟨_, y3⟩
  have hyoung : ∀ {p : Paper} {n : Nat} (_ : OfYear p n) (y : Int), (∃ z : Nat, OfYear p z ∧ (z : Int) < y + 2) ↔ (n : Int) < y + 2 := by
    intro p n hn y
    exact ⟨fun ⟨z, hz, hl⟩ => year_unique hz hn ▸ hl, fun hl => ⟨n, hn, hl⟩⟩
  have hc : ∀ y : Int, citedIn WhoCites.file LocalCites.refsIn y = (if (2001 : Int) < y + 2 then 0 else [WhoCites.listed, cy].countP (fun r => decide ((r.year : Int) = y))) +
      (if (2003 : Int) < y + 2 then 0 else [again].countP (fun r => decide ((r.year : Int) = y))) := by
    intro y
    unfold citedIn
    show (([WhoCites.file[0], WhoCites.file[1], WhoCites.file[2]] : List Paper).map _).sum = _
    simp only [List.map_cons, List.map_nil, List.sum_cons, List.sum_nil, hyoung y1, hyoung y2, hyoung y3]
    rw [show LocalCites.refsIn WhoCites.file[0] = [] by decide +kernel, show LocalCites.refsIn WhoCites.file[1] = [WhoCites.listed, cy] by rfl,
      show LocalCites.refsIn WhoCites.file[2] = [again] by rfl]
    simp
  have hlast : ∀ y : Int, 0 < citedIn WhoCites.file LocalCites.refsIn y → y ≤ 1998 := by
    intro y hy
    rw [hc] at hy
    by_contra hgt
    have e1 : [WhoCites.listed, cy].countP (fun r => decide ((r.year : Int) = y)) = 0 := by
      simp [WhoCites.listed, cy]; omega
    have e2 : [again].countP (fun r => decide ((r.year : Int) = y)) = 0 := by
      simp [again]; omega
    rw [e1, e2] at hy
    simp at hy
  have h98 : citedIn WhoCites.file LocalCites.refsIn 1998 = 2 := by rw [hc]; decide +kernel
  obtain ⟨t, h1, _, h3, _⟩ := C122_rpys (fun _ => []) setting WhoCites.file_ok texts hyears LocalCites.refsIn hrefs id (fun _ => List.Perm.refl _) 1995 1998 (some 1995) none .none false
    (.inl rfl) (.inr ⟨rfl, by decide, ⟨by rw [h98]; decide, by intro m hm; rw [← Option.some.inj hm]; decide⟩, fun y hy => hlast y hy.1⟩) (by intro y h; cases h)
  refine ⟨t, h1, (h3 _).2 ⟨by decide, by intro l h; cases h⟩, fun h => ?_, h98⟩
  exact absurd ((h3 _).1 h).1.2 (by decide)

end Verif.Props.FileTables
