import Verif.Model.OtherTables
import Verif.Spec.OtherTables
import Verif.Props.Derived
import Verif.Props.FileTables

/-! # Tables of records that stand for papers -/
set_option autoImplicit false
set_option linter.unusedSimpArgs false
namespace Verif.Lemmas.OtherTables
open Verif.Py Verif.Model.RecordAccess Verif.Model.Series Verif.Model.OtherTables Verif.Spec
open Verif.Props.FileTables (sum_pos)

section
variable {ρ φ α : Type} [DecidableEq φ] {val : String → ρ → Except AErr (Option φ)} {fieldVal : φ → FieldVal φ} {nodeText : φ → Str} {num : φ → Option Int}
  {rs : List ρ} {of : ρ → α} {papers : List α} {txt : Str → φ}

/-- Under the tag each record has the items of its paper. -/
def Gives (val : String → ρ → Except AErr (Option φ)) (fieldVal : φ → FieldVal φ) (txt : Str → φ) (rs : List ρ) (of : ρ → α) (k : String) (items : α → List Str) : Prop :=
  ∀ r ∈ rs, ∃ o, val k r = .ok o ∧ vals (o.map fieldVal) = (items (of r)).map txt

/-- What is read of a record under a tag. -/
def got (val : String → ρ → Except AErr (Option φ)) (k : String) (r : ρ) : Option φ :=
  match val k r with
  | .ok o => o
  | .error _ => none

theorem got_ok {k : String} {r : ρ} {o : Option φ} (h : val k r = .ok o) : val k r = .ok (got val k r) := by unfold got; rw [h]

theorem got_vals {k : String} {items : α → List Str} (h : Gives val fieldVal txt rs of k items) {r : ρ} (hr : r ∈ rs) :
    val k r = .ok (got val k r) ∧ vals ((got val k r).map fieldVal) = (items (of r)).map txt := by
  obtain ⟨o, h1, h2⟩ := h r hr
  refine ⟨got_ok h1, ?_⟩
  unfold got
  rw [h1]; exact h2

theorem both_ok {k1 k2 : String} (h1 : ∀ r ∈ rs, val k1 r = .ok (got val k1 r)) (h2 : ∀ r ∈ rs, val k2 r = .ok (got val k2 r)) :
    rs.mapM (both val k1 k2) = .ok (rs.map (fun r => (got val k1 r, got val k2 r))) := by
  apply Lemmas.Pipeline.mapM_ok
  intro r hr
  unfold both
  rw [h1 r hr, h2 r hr]
  rfl

theorem sum_of (hp : (rs.map of).Perm papers) (f : α → Nat) : (rs.map (fun r => f (of r))).sum = (papers.map f).sum := by
  have := (hp.map f).sum_nat
  rw [List.map_map] at this
  exact this

theorem mem_of (hp : (rs.map of).Perm papers) (P : α → Prop) : (∃ r ∈ rs, P (of r)) ↔ ∃ p ∈ papers, P p := by
  constructor
  · rintro ⟨r, hr, h⟩
    exact ⟨of r, hp.mem_iff.1 (List.mem_map_of_mem hr), h⟩
  · rintro ⟨p, hp', h⟩
    obtain ⟨r, hr, rfl⟩ := List.mem_map.1 (hp.mem_iff.2 hp')
    exact ⟨r, hr, h⟩

theorem twoMode_spec (hp : (rs.map of).Perm papers) (hn : ∀ s, nodeText (txt s) = s) {k1 k2 : String} (hk : k1 ≠ k2) {i1 i2 : α → List Str}
    (h1 : Gives val fieldVal txt rs of k1 i1) (h2 : Gives val fieldVal txt rs of k2 i2) (directed nodeCount edgeWeight recordType : Bool) :
    ∃ g, twoMode val fieldVal nodeText directed nodeCount edgeWeight recordType k1 k2 rs = .ok g ∧ g.directed = directed ∧
      (∀ u v, g.edge? u v = edgeFor edgeWeight (papers.map (fun p => crossShared directed (i1 p) (i2 p) u v)).sum) ∧
      ∀ n, g.hasNode n = true ↔ ∃ p ∈ papers, n ∈ i1 p ∨ n ∈ i2 p := by
  unfold twoMode
  rw [both_ok (fun r hr => (got_vals h1 hr).1) (fun r hr => (got_vals h2 hr).1)]
  obtain ⟨_, g2, g3, g4⟩ := Verif.Props.C13_edges_nodes directed nodeCount edgeWeight recordType nodeText nodeText (field fieldVal k1) k1 k2
    (rs.map (fun r => (got val k1 r, got val k2 r)))
  have hid : ∀ l : List Str, (l.map txt).map nodeText = l := by
    intro l
    rw [List.map_map]
    conv => rhs; rw [← List.map_id l]
    exact List.map_congr_left (fun s _ => hn s)
  have hn1 : ∀ r ∈ rs, Verif.Props.names nodeText (field fieldVal k1) [k1] (got val k1 r, got val k2 r) = i1 (of r) := by
    intro r hr
    unfold Verif.Props.names field
    simp only [List.flatMap_cons, List.flatMap_nil, List.append_nil, if_true]
    rw [(got_vals h1 hr).2, hid]
  have hn2 : ∀ r ∈ rs, Verif.Props.names nodeText (field fieldVal k1) [k2] (got val k1 r, got val k2 r) = i2 (of r) := by
    intro r hr
    unfold Verif.Props.names field
    simp only [List.flatMap_cons, List.flatMap_nil, List.append_nil, if_neg (Ne.symm hk)]
    rw [(got_vals h2 hr).2, hid]
  refine ⟨_, rfl, g2, fun u v => ?_, fun n => ?_⟩
  · refine (g3 u v).trans ?_
    rw [← sum_of hp (fun p => crossShared directed (i1 p) (i2 p) u v), List.map_map]
    refine congrArg (fun l => edgeFor edgeWeight (List.sum l)) (List.map_congr_left fun r hr => ?_)
    simp only [Function.comp, hn1 r hr, hn2 r hr]
  · refine (g4 n).trans ?_
    rw [← mem_of hp (fun p => n ∈ i1 p ∨ n ∈ i2 p)]
    simp only [List.mem_map, exists_exists_and_eq_and]
    refine exists_congr fun r => and_congr_right fun hr => ?_
    rw [hn1 r hr, hn2 r hr]

theorem count_txt (hn : ∀ s, nodeText (txt s) = s) (l : List Str) (a : Str) : (l.map txt).count (txt a) = l.count a :=
  List.count_map_of_injective l txt (fun x y e => by rw [← hn x, e, hn]) a

theorem cooccurrences_spec (hp : (rs.map of).Perm papers) (hn : ∀ s, nodeText (txt s) = s) {k1 k2 : String} {i1 i2 : α → List Str}
    (h1 : Gives val fieldVal txt rs of k1 i1) (h2 : Gives val fieldVal txt rs of k2 i2) :
    ∃ d, Model.OtherTables.cooccurrences val fieldVal k1 k2 rs = .ok d ∧ Dict.WF d ∧ (∀ k, k ∈ Dict.keys d ↔ ∃ p ∈ papers, ∃ a ∈ i1 p, k = txt a) ∧
      ∀ a inner, d.get? (txt a) = some inner → Dict.WF inner ∧ ∀ b n, inner.get? (txt b) = some n ↔
        n = (papers.map (fun p => (i1 p).count a * (i2 p).count b)).sum ∧ 0 < n := by
  unfold Model.OtherTables.cooccurrences
  rw [both_ok (fun r hr => (got_vals h1 hr).1) (fun r hr => (got_vals h2 hr).1)]
  obtain ⟨d1, d2, d3⟩ := Verif.Props.C11_cooccurrence (keyOrCounted fieldVal) (rs.map (fun r => (got val k1 r, got val k2 r))) false [true]
  have hv1 : ∀ r ∈ rs, vals (keyOrCounted fieldVal (got val k1 r, got val k2 r) false) = (i1 (of r)).map txt := fun r hr => (got_vals h1 hr).2
  have hv2 : ∀ r ∈ rs, vals (keyOrCounted fieldVal (got val k1 r, got val k2 r) true) = (i2 (of r)).map txt := fun r hr => (got_vals h2 hr).2
  refine ⟨_, rfl, d1, fun k => ?_, fun a inner ha => ?_⟩
  · refine (d2 k).trans ?_
    rw [← mem_of hp (fun p => ∃ a ∈ i1 p, k = txt a)]
    simp only [List.mem_map, exists_exists_and_eq_and]
    refine exists_congr fun r => and_congr_right fun hr => ?_
    rw [hv1 r hr, List.mem_map]
    exact exists_congr fun a => and_congr_right fun _ => eq_comm
  · obtain ⟨w1, w2⟩ := d3 _ inner ha
    refine ⟨w1, fun b n => ?_⟩
    rw [w2]
    have : Spec.cooccurrences (keyOrCounted fieldVal) (rs.map (fun r => (got val k1 r, got val k2 r))) false [true] (txt a) (txt b) =
        (papers.map (fun p => (i1 p).count a * (i2 p).count b)).sum := by
      unfold Spec.cooccurrences
      rw [List.map_map, ← sum_of hp (fun p => (i1 p).count a * (i2 p).count b)]
      refine congrArg List.sum (List.map_congr_left fun r hr => ?_)
      simp only [Function.comp, hv1 r hr, hv2 r hr, List.map_cons, List.map_nil, List.sum_cons, List.sum_nil, Nat.add_zero]
      rw [count_txt hn, count_txt hn]
    rw [this]

/-- Each record has the year of its paper. -/
def GivesYear (val : String → ρ → Except AErr (Option φ)) (num : φ → Option Int) (rs : List ρ) (of : ρ → α) (year : α → Option Nat) : Prop :=
  ∀ r ∈ rs, ∃ o, val "year" r = .ok o ∧ o.bind num = (year (of r)).map (fun y : Nat => (y : Int))

theorem got_year {year : α → Option Nat} (h : GivesYear val num rs of year) {r : ρ} (hr : r ∈ rs) :
    val "year" r = .ok (got val "year" r) ∧ (got val "year" r).bind num = (year (of r)).map (fun y : Nat => (y : Int)) := by
  obtain ⟨o, h1, h2⟩ := h r hr
  refine ⟨got_ok h1, ?_⟩
  unfold got
  rw [h1]; exact h2

theorem timeSeries_spec (hp : (rs.map of).Perm papers) (hn : ∀ s, nodeText (txt s) = s) {year : α → Option Nat} (hy : GivesYear val num rs of year) {k : String}
    {items : α → List Str} (hi : Gives val fieldVal txt rs of k items) (gf : Bool) :
    ∃ l : List (Str × Nat), l.Nodup ∧ (∀ a y, (a, y) ∈ l ↔ ∃ p ∈ papers, year p = some y ∧ a ∈ items p) ∧
      (gf = true → l.Pairwise (fun a b => b.2 ≤ a.2)) ∧ (gf = false → l.Pairwise (fun a b => a.2 ≤ b.2)) ∧
      timeSeries val fieldVal num k true gf false none rs = .ok (.pairs (l.map (fun e => (txt e.1, e.2)))) ∧
      ∀ gy, timeSeries val fieldVal num k gy gf true none rs = .ok (.pandas (l.map (fun e => txt e.1))
        (l.map (fun e => (papers.map (fun p => if year p = some e.2 then (items p).count e.1 else 0)).sum)) (l.map Prod.snd)) := by
  obtain ⟨l, l1, l2, l3, l4, l5, _, l7⟩ := Verif.Props.C10_tag (fun v : Option φ × Option φ => yearNat num v.1) (fun v => v.2.map fieldVal)
    (rs.map (fun r => (got val "year" r, got val k r))) gf none
  have hocc : ∀ v y, occurrencesIn (fun v : Option φ × Option φ => yearNat num v.1) (fun v => v.2.map fieldVal) (rs.map (fun r => (got val "year" r, got val k r))) v y =
      (papers.map (fun p => if year p = some y then ((items p).map txt).count v else 0)).sum := by
    intro v y
    unfold occurrencesIn occurrences
    rw [Verif.Props.WhoCites.sum_filter, List.map_map, ← sum_of hp (fun p => if year p = some y then ((items p).map txt).count v else 0)]
    refine congrArg List.sum (List.map_congr_left fun r hr => ?_)
    have e : yearNat num (got val "year" r) = year (of r) := by
      unfold yearNat
      rw [(got_year hy hr).2]
      cases year (of r) <;> rfl
    simp only [Function.comp, e, (got_vals hi hr).2, decide_eq_true_eq]
  have htext : ∀ v y, (v, y) ∈ l → ∃ p ∈ papers, year p = some y ∧ v ∈ (items p).map txt := by
    intro v y hv
    have := ((l3 v y).1 hv).1
    rw [hocc] at this
    obtain ⟨p, hp, hpos⟩ := sum_pos.1 this
    by_cases ho : year p = some y
    · rw [if_pos ho] at hpos
      exact ⟨p, hp, ho, List.count_pos_iff.1 hpos⟩
    · rw [if_neg ho] at hpos; cases hpos
  have hinj : ∀ x y, txt x = txt y → x = y := fun x y e => by rw [← hn x, e, hn]
  have hid : l = (l.map (fun e => (nodeText e.1, e.2))).map (fun e => (txt e.1, e.2)) := by
    rw [List.map_map]
    conv => lhs; rw [← List.map_id l]
    apply List.map_congr_left
    rintro ⟨v, y⟩ hv
    obtain ⟨p, _, _, hm⟩ := htext v y hv
    obtain ⟨a, _, rfl⟩ := List.mem_map.1 hm
    simp only [Function.comp, id, hn]
  generalize hl' : l.map (fun e => (nodeText e.1, e.2)) = l' at hid
  subst hid
  have hrun : ∀ gy pm, timeSeries val fieldVal num k gy gf pm none rs = .ok (timeSeriesTag (fun v : Option φ × Option φ => yearNat num v.1) (fun v => v.2.map fieldVal)
      (rs.map (fun r => (got val "year" r, got val k r))) gy gf pm none) := by
    intro gy pm
    unfold timeSeries
    rw [both_ok (fun r hr => (got_year hy hr).1) (fun r hr => (got_vals hi hr).1)]
    rfl
  refine ⟨l', l2.of_map _, fun a y => ?_, fun hg => ?_, fun hg => ?_, ?_, fun gy => ?_⟩
  · have hmem : (a, y) ∈ l' ↔ (txt a, y) ∈ l'.map (fun e => (txt e.1, e.2)) := by
      constructor
      · intro h; exact List.mem_map.2 ⟨_, h, rfl⟩
      · intro h
        obtain ⟨⟨b, z⟩, hb, e⟩ := List.mem_map.1 h
        simp only [Prod.mk.injEq] at e
        obtain rfl := hinj _ _ e.1
        obtain rfl := e.2
        exact hb
    rw [hmem]
    constructor
    · intro hm
      obtain ⟨p, hp, ho, hv⟩ := htext _ _ hm
      obtain ⟨b, hb, e⟩ := List.mem_map.1 hv
      obtain rfl := hinj _ _ e
      exact ⟨p, hp, ho, hb⟩
    · rintro ⟨p, hp, ho, ha⟩
      refine (l3 _ _).2 ⟨?_, by intro x hx; cases hx⟩
      rw [hocc]
      refine sum_pos.2 ⟨p, hp, ?_⟩
      rw [if_pos ho, count_txt hn]
      exact List.count_pos_iff.2 ha
  · have := l4 hg; rw [List.pairwise_map] at this; exact this
  · have := l5 hg; rw [List.pairwise_map] at this; exact this
  · rw [hrun, l1]
  · rw [hrun, l7]
    simp only [List.map_map, Function.comp_def, hocc, count_txt hn]
/-- Each record has citations with the years its paper cites. -/
def GivesCites (val : String → ρ → Except AErr (Option φ)) (cites : Option φ → Option (List Model.Citation.Cite)) (rs : List ρ) (of : ρ → α) (cited : α → List (Option Nat)) : Prop :=
  ∀ r ∈ rs, ∃ o, val "citations" r = .ok o ∧ (cites o).map (fun cs => cs.map (fun c => c.year.join)) =
    if cited (of r) = [] then none else some ((cited (of r)).map (fun o => o.map (fun n : Nat => (n : Int))))

/-- What `rpys` reads of a paper. -/
def rrec (year : α → Option Nat) (cited : α → List (Option Nat)) (p : α) : Model.Rpys.Rec :=
  ⟨if cited p = [] then none else some ((cited p).map (fun o => o.map (fun n : Nat => (n : Int)))), (year p).map (fun y : Nat => (y : Int))⟩

theorem rrec_cites (year : α → Option Nat) (cited : α → List (Option Nat)) (p : α) (y : Int) : Verif.Props.citesOfYear (rrec year cited p) y =
    if (year p).any (fun z => decide ((z : Int) < y + 2)) then 0 else (cited p).countP (fun o => o.any (fun n => decide ((n : Int) = y))) := by
  unfold Verif.Props.citesOfYear rrec
  by_cases hr : cited p = []
  · rw [if_pos hr]
    simp [hr]
  · rw [if_neg hr]
    dsimp only
    refine if_congr ?_ rfl ?_
    · cases year p <;> simp
    · rw [List.count, List.countP_map]
      apply List.countP_congr
      intro o _
      cases o <;> simp

theorem rpys_spec (hp : (rs.map of).Perm papers) {year : α → Option Nat} (hy : GivesYear val num rs of year) {cites : Option φ → Option (List Model.Citation.Cite)}
    {cited : α → List (Option Nat)} (hc : GivesCites val cites rs of cited)
    (years : List Int → List Int) (hyears : ∀ l, (years l).Perm l) (lo hi : Int) (minYear maxYear : Option Int) (drop : Model.Rpys.DropYears) (rankEmpty : Bool)
    (hlo : minYear = some lo ∨ minYear = none ∧ 1000 < lo ∧ IsLeast { y | 0 < OtherTables.citedIn papers year cited y ∧ ∀ M, maxYear = some M → y ≤ M + 2 } lo)
    (hhi : maxYear = some hi ∨ maxYear = none ∧ hi < 2100 ∧ IsGreatest { y | 0 < OtherTables.citedIn papers year cited y ∧ ∀ m, minYear = some m → m - 2 ≤ y } hi)
    (hdrop : ∀ y, drop ≠ .one y) :
    ∃ t, rpys val num cites years minYear maxYear drop rankEmpty rs = .ok (.ok t) ∧
      t.year.Nodup ∧ (∀ y, y ∈ t.year ↔ (lo ≤ y ∧ y ≤ hi) ∧ ∀ l, drop = .many l → y ∉ l) ∧
      t.count = t.year.map (OtherTables.citedIn papers year cited) ∧
      ∃ dev : Int → Int, t.dev = t.year.map dev ∧
        (∀ y ∈ t.year, ∃ m, Verif.Props.IsMedian ([y - 2, y - 1, y, y + 1, y + 2].map (OtherTables.citedIn papers year cited)) m ∧
          dev y = (OtherTables.citedIn papers year cited y : Int) - m) ∧
        ∃ rank : Int → Nat, t.rank = t.year.map (fun y => if OtherTables.citedIn papers year cited y = 0 ∧ rankEmpty = false then 0 else rank y) ∧
          (t.year.map rank).Perm (List.range' 1 t.year.length) ∧ ∀ y ∈ t.year, ∀ z ∈ t.year, dev y < dev z → rank y < rank z := by
  have hgc : ∀ r ∈ rs, val "citations" r = .ok (got val "citations" r) ∧ (cites (got val "citations" r)).map (fun cs => cs.map (fun c => c.year.join)) =
      if cited (of r) = [] then none else some ((cited (of r)).map (fun o => o.map (fun n : Nat => (n : Int)))) := by
    intro r hr
    obtain ⟨o, h1, h2⟩ := hc r hr
    refine ⟨got_ok h1, ?_⟩
    unfold got
    rw [h1]; exact h2
  have hrecs : (rs.map (fun r => (got val "year" r, got val "citations" r))).map (rpysRec num cites) = rs.map (fun r => rrec year cited (of r)) := by
    rw [List.map_map]
    apply List.map_congr_left
    intro r hr
    unfold Function.comp rpysRec rrec
    rw [(hgc r hr).2, (got_year hy hr).2]
  have hcit : Verif.Props.timesCited (rs.map (fun r => rrec year cited (of r))) = OtherTables.citedIn papers year cited := by
    funext y
    unfold Verif.Props.timesCited OtherTables.citedIn
    rw [List.map_map]
    refine Eq.trans (sum_of hp (fun p => Verif.Props.citesOfYear (rrec year cited p) y)) ?_
    congr 1
    apply List.map_congr_left
    intro p _
    exact rrec_cites year cited p y
  have hrun : rpys val num cites years minYear maxYear drop rankEmpty rs = .ok (Model.Rpys.rpys years minYear maxYear drop rankEmpty (rs.map (fun r => rrec year cited (of r)))) := by
    unfold rpys
    rw [both_ok (fun r hr => (got_year hy hr).1) (fun r hr => (hgc r hr).1), ← hrecs]
    rfl
  obtain ⟨t, t1, t2, t3, t4, t5⟩ := Verif.Props.C25_table years hyears minYear maxYear drop rankEmpty (rs.map (fun r => rrec year cited (of r))) lo hi
    (by
      rcases hlo with e | ⟨e, _, l1, l2⟩
      · exact .inl e
      · refine .inr ⟨e, ⟨by rw [hcit]; exact l1.1, by rw [e]; (intro m hm; cases hm), l1.2⟩, fun y hy => l2 ⟨?_, hy.2.2⟩⟩
        have := hy.1; rw [hcit] at this; exact this)
    (by
      rcases hhi with e | ⟨e, _, l1, l2⟩
      · exact .inl e
      · refine .inr ⟨e, ⟨by rw [hcit]; exact l1.1, l1.2, by rw [e]; (intro m hm; cases hm)⟩, fun y hy => l2 ⟨?_, hy.2.1⟩⟩
        have := hy.1; rw [hcit] at this; exact this)
    (by
      intro e
      rcases hlo with e' | ⟨_, g, _⟩
      · rw [e] at e'; cases e'
      · exact g)
    (by
      intro e
      rcases hhi with e' | ⟨_, g, _⟩
      · rw [e] at e'; cases e'
      · exact g) hdrop
  rw [hcit] at t4 t5
  refine ⟨t, by rw [hrun, t1], t2, fun y => ?_, t4, t5⟩
  rw [t3]
  refine and_congr Iff.rfl ?_
  cases drop with
  | none => simp [Verif.Props.Dropped]
  | one z => exact absurd rfl (hdrop z)
  | many l => simp [Verif.Props.Dropped]
end
end Verif.Lemmas.OtherTables
