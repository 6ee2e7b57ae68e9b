import Verif.Spec.Derived
import Verif.Props.Pipeline
import Verif.Props.RecordFilters

/-! # C121: collections made from files with the operators, `yearSplit` and `dropNonJournals` -/
set_option autoImplicit false
set_option linter.unusedSimpArgs false
namespace Verif.Props.Derived
open Verif.Py Verif.Model Verif.Model.WosFields Verif.Model.Pipeline Verif.Model.Derived Verif.Spec.Pipeline Verif.Spec.Derived Verif.Lemmas.Pipeline
  Verif.Props.Pipeline
open Verif.Model.RecordAccess (Op)
open Verif.Spec (edgeFor pairsShared)

section
variable {W : World} {order : List Model.Wos.Rec → List Model.Wos.Rec} (before : Model.Wos.Rec → List (Op String FVal)) {origin : Str} {pool : List Paper}

/-- The collection has the records of just these papers of the pool. -/
structure HasJust (pool : List Paper) (P : Paper → Prop) (c : C) : Prop where
  cls : c.cls = "RecordCollection"
  bad : c.bad = false
  errors : c.errors = []
  nodup : c.items.Nodup
  mem : ∀ r, r ∈ c.items ↔ ∃ p ∈ pool, P p ∧ r = toRec p

theorem toRec_inj {p q : Paper} (h : toRec p = toRec q) : p = q := congrArg (fun r : Model.Wos.Rec => r.fields) h

theorem HasJust.wf {P : Paper → Prop} {c : C} (h : HasJust pool P c) : c.WF := ⟨h.nodup, by rw [h.errors]; exact Dict.WF_nil⟩

theorem HasJust.toRec {P : Paper → Prop} {c : C} (h : HasJust pool P c) {p : Paper} (hp : p ∈ pool) : toRec p ∈ c.items ↔ P p := by
  rw [h.mem]
  constructor
  · rintro ⟨q, _, hq, e⟩
    rw [toRec_inj e]; exact hq
  · intro hP
    exact ⟨p, hp, hP, rfl⟩

theorem binary {P Q : Paper → Prop} {a b : C} (ha : HasJust pool P a) (hb : HasJust pool Q b) (sym : String) (items : List Model.Wos.Rec) (R : Paper → Prop)
    (h : ∀ r, r ∈ items ↔ ∃ p ∈ pool, R p ∧ r = toRec p) : HasJust pool R (Coll.binaryWith sym items a b) := by
  unfold Coll.binaryWith
  rw [ha.bad, hb.bad]
  exact ⟨ha.cls, rfl, rfl, PSet.nodup_ofList _, fun r => by rw [← h r]; exact PSet.mem_ofList _ _⟩

theorem year_eq (hf : FileOk W.ws origin pool) (hint : ∀ n : Nat, W.prims.int (showNat n) = some (n : Int)) (hy : YearsOk pool) {p : Paper} (hp : p ∈ pool) :
    (linesOf p "PY" = [] ∧ yearOf W before (toRec p) = .ok none) ∨ ∃ y : Nat, OfYear p y ∧ yearOf W before (toRec p) = .ok (some y) := by
  unfold yearOf
  rw [value_eq W before (hf.each p hp) "PY" "year" "year" (by unfold Spec.TagTable.Wos; decide +kernel) (.inr rfl)]
  rcases hy p hp with hl | ⟨y, h1, h2, h3⟩
  · rw [if_pos hl]; exact .inl ⟨hl, rfl⟩
  · refine .inr ⟨y, ⟨h1, h2, h3⟩, ?_⟩
    cases hl : linesOf p "PY" with
    | nil => rw [hl] at h3; cases h3
    | cons v rest =>
      rw [hl] at h3
      obtain rfl : v = showNat y := by simpa using h3
      rw [if_neg (by simp), WosFields.C69_year_digits W.prims hint y ⟨h1, h2⟩]
      rfl

theorem type_eq (hf : FileOk W.ws origin pool) {p : Paper} (hp : p ∈ pool) (hl : linesOf p "PT" ≠ []) : typeOf W before (toRec p) = .ok (linesOf p "PT").head? := by
  unfold typeOf
  rw [value_eq W before (hf.each p hp) "PT" "pubType" "pubType" (by unfold Spec.TagTable.Wos; decide +kernel) (.inr rfl), if_neg hl]
  cases hv : linesOf p "PT" with
  | nil => exact absurd hv hl
  | cons v rest =>
    rw [(WosFields.C69_first W.prims v rest).1 "PT".toList (by decide)]
    rfl

theorem showNat_inj (hint : ∀ n : Nat, W.prims.int (showNat n) = some (n : Int)) {a b : Nat} (e : showNat a = showNat b) : a = b :=
  Int.ofNat.inj (Option.some.inj ((hint a).symm.trans ((congrArg W.prims.int e).trans (hint b))))

open Classical in
theorem inYears_eq (hf : FileOk W.ws origin pool) (hint : ∀ n : Nat, W.prims.int (showNat n) = some (n : Int)) (hy : YearsOk pool) {P : Paper → Prop} {c : C}
    (hc : HasJust pool P c) (s e : Int) (dropMissing : Bool) :
    if dropMissing = false ∧ ∃ p ∈ pool, P p ∧ linesOf p "PY" = [] then inYears W before s e dropMissing c = .error (.filter .typeError)
    else ∃ c', inYears W before s e dropMissing c = .ok c' ∧ HasJust pool (fun p => P p ∧ ∃ y : Nat, OfYear p y ∧ s ≤ y ∧ y ≤ e) c' := by
  have hread : c.items.mapM (yearOf W before) = .ok (c.items.map (fun r => got (yearOf W before r))) := by
    apply mapM_ok
    intro r hr
    obtain ⟨p, hp, _, rfl⟩ := (hc.mem r).1 hr
    rcases year_eq before hf hint hy hp with ⟨_, e⟩ | ⟨y, _, e⟩ <;> rw [e] <;> rfl
  have hnone : (∃ r ∈ c.items, got (yearOf W before r) = none) ↔ ∃ p ∈ pool, P p ∧ linesOf p "PY" = [] := by
    constructor
    · rintro ⟨r, hr, hn⟩
      obtain ⟨p, hp, hP, rfl⟩ := (hc.mem r).1 hr
      rcases year_eq before hf hint hy hp with ⟨h1, e⟩ | ⟨y, _, e⟩
      · exact ⟨p, hp, hP, h1⟩
      · rw [e] at hn; cases hn
    · rintro ⟨p, hp, hP, hl⟩
      refine ⟨toRec p, (hc.mem _).2 ⟨p, hp, hP, rfl⟩, ?_⟩
      rcases year_eq before hf hint hy hp with ⟨_, e⟩ | ⟨y, ⟨_, _, h3⟩, _⟩
      · rw [e]; rfl
      · rw [hl] at h3; cases h3
  have hin : ∀ p ∈ pool, (Verif.Props.InYears (fun r => got (yearOf W before r)) s e (toRec p) ↔ ∃ y : Nat, OfYear p y ∧ s ≤ y ∧ y ≤ e) := by
    intro p hp
    constructor
    · rintro ⟨y, hy1, hy2⟩
      rcases year_eq before hf hint hy hp with ⟨_, e⟩ | ⟨y', h1, e⟩
      · dsimp only at hy1; rw [e] at hy1; cases hy1
      · dsimp only at hy1
        rw [e] at hy1
        obtain rfl : (y' : Int) = y := Option.some.inj hy1
        exact ⟨y', h1, hy2⟩
    · rintro ⟨y, h1, h2⟩
      rcases year_eq before hf hint hy hp with ⟨h0, _⟩ | ⟨y', h1', e⟩
      · have := h1.2.2; rw [h0] at this; cases this
      · have : y' = y := showNat_inj hint (Option.some.inj (h1'.2.2.symm.trans h1.2.2))
        subst this
        exact ⟨y', by dsimp only; rw [e]; rfl, h2⟩
  have h := Verif.Props.C21_yearSplit (fun r => got (yearOf W before r)) s e dropMissing c hc.wf
  unfold inYears
  rw [hread]
  dsimp only
  by_cases hcond : dropMissing = false ∧ ∃ p ∈ pool, P p ∧ linesOf p "PY" = []
  · rw [if_pos ⟨hcond.1, hnone.2 hcond.2⟩] at h
    rw [if_pos hcond, h]
  · rw [if_neg (fun x => hcond ⟨x.1, hnone.1 x.2⟩)] at h
    obtain ⟨c', h1, h2, h3, h4, h5, h6, h7⟩ := h
    rw [if_neg hcond, h1]
    refine ⟨c', rfl, ?_, h6, h7, h2.1, fun r => ?_⟩
    · have h1' := h1
      unfold RecordFilters.yearSplit at h1'
      cases hl : RecordFilters.yearLoop (fun r => got (yearOf W before r)) s e dropMissing [] c.items with
      | error x => rw [hl] at h1'; cases h1'
      | ok l => rw [hl] at h1'; rw [← Except.ok.inj h1']; rfl
    · rw [h3, hc.mem]
      constructor
      · rintro ⟨⟨p, hp, hP, rfl⟩, hi⟩
        exact ⟨p, hp, ⟨hP, (hin p hp).1 hi⟩, rfl⟩
      · rintro ⟨p, hp, ⟨hP, hi⟩, rfl⟩
        exact ⟨⟨p, hp, hP, rfl⟩, (hin p hp).2 hi⟩

theorem onlyType_eq (hf : FileOk W.ws origin pool) {P : Paper → Prop} {c : C} (hc : HasJust pool P c) (hp : ∀ p ∈ pool, P p → linesOf p "PT" ≠ []) (t : Str)
    (dropBad invert : Bool) : ∃ c', onlyType W before t dropBad invert c = .ok c' ∧ HasJust pool (fun p => P p ∧
      (if invert then (linesOf p "PT").head? ≠ some (W.prims.upper t) else (linesOf p "PT").head? = some (W.prims.upper t))) c' := by
  have htype : ∀ r ∈ c.items, ∃ p ∈ pool, P p ∧ r = toRec p ∧ typeOf W before r = .ok (linesOf p "PT").head? := by
    intro r hr
    obtain ⟨p, hpp, hP, rfl⟩ := (hc.mem r).1 hr
    exact ⟨p, hpp, hP, rfl, type_eq before hf hpp (hp p hpp hP)⟩
  have hread : c.items.mapM (typeOf W before) = .ok (c.items.map (fun r => got (typeOf W before r))) := by
    apply mapM_ok
    intro r hr
    obtain ⟨p, _, _, _, e⟩ := htype r hr
    rw [e]; rfl
  generalize hd : (if dropBad then Coll.dropBadEntries (fun r : Model.Wos.Rec => r.bad) c else c) = d
  have hdj : HasJust pool P d := by
    cases dropBad
    · rw [if_neg (by simp)] at hd; subst hd; exact hc
    · rw [if_pos rfl] at hd
      subst hd
      refine ⟨hc.cls, rfl, rfl, PSet.nodup_ofList _, fun r => ?_⟩
      show r ∈ PSet.ofList _ ↔ _
      rw [PSet.mem_ofList, List.mem_filter, hc.mem]
      constructor
      · exact fun h => h.1
      · rintro ⟨p, hpp, hP, rfl⟩
        exact ⟨⟨p, hpp, hP, rfl⟩, rfl⟩
  have hany : d.items.any (fun r => (got (typeOf W before r)).isNone) = false := by
    rw [List.any_eq_false]
    intro r hr
    obtain ⟨p, hpp, hP, rfl⟩ := (hdj.mem r).1 hr
    rw [type_eq before hf hpp (hp p hpp hP)]
    have := hp p hpp hP
    cases hl : linesOf p "PT" with
    | nil => exact absurd hl this
    | cons v rest => simp [got]
  have hfil : ∀ (Q : Option Str → Bool) (r : Model.Wos.Rec), r ∈ d.items.filter (fun r => Q (got (typeOf W before r))) ↔
      ∃ p ∈ pool, (P p ∧ Q (linesOf p "PT").head? = true) ∧ r = toRec p := by
    intro Q r
    rw [List.mem_filter, hdj.mem]
    constructor
    · rintro ⟨⟨p, hpp, hP, rfl⟩, h⟩
      rw [type_eq before hf hpp (hp p hpp hP)] at h
      exact ⟨p, hpp, ⟨hP, h⟩, rfl⟩
    · rintro ⟨p, hpp, ⟨hP, h⟩, rfl⟩
      exact ⟨⟨p, hpp, hP, rfl⟩, by rw [type_eq before hf hpp (hp p hpp hP)]; exact h⟩
  unfold onlyType
  rw [hread]
  dsimp only
  have hdn : RecordFilters.dropNonJournals W.prims.upper (fun r => got (typeOf W before r)) (fun r => r.bad) t dropBad invert c =
      (if invert then ({ d with items := d.items.filter (fun r => got (typeOf W before r) ≠ some (W.prims.upper t)) }, false)
        else ({ d with items := d.items.filter (fun r => got (typeOf W before r) = some (W.prims.upper t)) }, false)) := by
    unfold RecordFilters.dropNonJournals
    rw [hd]
    dsimp only
    rw [hany]
    rfl
  rw [hdn]
  cases invert
  · refine ⟨_, rfl, hdj.cls, hdj.bad, hdj.errors, hdj.nodup.filter _, fun r => ?_⟩
    refine (hfil (fun x => decide (x = some (W.prims.upper t))) r).trans ?_
    simp
  · refine ⟨_, rfl, hdj.cls, hdj.bad, hdj.errors, hdj.nodup.filter _, fun r => ?_⟩
    refine (hfil (fun x => decide (x ≠ some (W.prims.upper t))) r).trans ?_
    simp

theorem eval_eq (h : Setting W order) (hf : FileOk W.ws origin pool) (hint : ∀ n : Nat, W.prims.int (showNat n) = some (n : Int)) (hy : YearsOk pool) (x : Plan)
    (hx : x.Ok W.ws W.prims.upper pool) : ∃ c, collOf W before order x.expr = some (.ok c) ∧ HasJust pool (x.Has W.prims.upper) c := by
  induction x with
  | file o papers =>
    obtain ⟨h1, h2⟩ := hx
    refine ⟨Coll.fresh "RecordCollection" (order (papers.map toRec)) "", ?_, ?_⟩
    · show Option.map _ (records W order (fileText o papers)) = _
      rw [records_eq W order h.nl h.E h1]
      rfl
    · refine ⟨rfl, rfl, rfl, PSet.nodup_ofList _, fun r => ?_⟩
      show r ∈ PSet.ofList _ ↔ _
      rw [PSet.mem_ofList, (h.perm _).mem_iff, List.mem_map]
      constructor
      · rintro ⟨p, hp, rfl⟩; exact ⟨p, h2 p hp, hp, rfl⟩
      · rintro ⟨p, _, hp, rfl⟩; exact ⟨p, hp, rfl⟩
  | or a b iha ihb =>
    obtain ⟨ca, e1, j1⟩ := iha hx.1
    obtain ⟨cb, e2, j2⟩ := ihb hx.2
    refine ⟨Coll.binaryWith " | " (PSet.union ca.items cb.items) ca cb, ?_, ?_⟩
    · show (do return both Coll.or (← collOf W before order a.expr) (← collOf W before order b.expr)) = _
      rw [e1, e2]
      show some (both Coll.or (.ok ca) (.ok cb)) = _
      simp [both, Coll.or, j1.cls, j2.cls, bind, Except.bind]
    · refine binary j1 j2 _ _ _ fun r => ?_
      rw [PSet.mem_union, j1.mem, j2.mem]
      constructor
      · rintro (⟨p, hp, hP, rfl⟩ | ⟨p, hp, hP, rfl⟩)
        · exact ⟨p, hp, .inl hP, rfl⟩
        · exact ⟨p, hp, .inr hP, rfl⟩
      · rintro ⟨p, hp, hP | hP, rfl⟩
        · exact .inl ⟨p, hp, hP, rfl⟩
        · exact .inr ⟨p, hp, hP, rfl⟩
  | and a b iha ihb =>
    obtain ⟨ca, e1, j1⟩ := iha hx.1
    obtain ⟨cb, e2, j2⟩ := ihb hx.2
    refine ⟨Coll.binaryWith " & " (PSet.inter ca.items cb.items) ca cb, ?_, ?_⟩
    · show (do return both Coll.and (← collOf W before order a.expr) (← collOf W before order b.expr)) = _
      rw [e1, e2]
      show some (both Coll.and (.ok ca) (.ok cb)) = _
      simp [both, Coll.and, j1.cls, j2.cls, bind, Except.bind]
    · refine binary j1 j2 _ _ _ fun r => ?_
      rw [PSet.mem_inter]
      constructor
      · rintro ⟨ha, hb⟩
        obtain ⟨p, hp, hP, rfl⟩ := (j1.mem r).1 ha
        exact ⟨p, hp, ⟨hP, (j2.toRec hp).1 hb⟩, rfl⟩
      · rintro ⟨p, hp, ⟨hP, hQ⟩, rfl⟩
        exact ⟨(j1.toRec hp).2 hP, (j2.toRec hp).2 hQ⟩
  | sub a b iha ihb =>
    obtain ⟨ca, e1, j1⟩ := iha hx.1
    obtain ⟨cb, e2, j2⟩ := ihb hx.2
    refine ⟨Coll.binaryWith " - " (PSet.diff ca.items cb.items) ca cb, ?_, ?_⟩
    · show (do return both Coll.sub (← collOf W before order a.expr) (← collOf W before order b.expr)) = _
      rw [e1, e2]
      show some (both Coll.sub (.ok ca) (.ok cb)) = _
      simp [both, Coll.sub, j1.cls, j2.cls, bind, Except.bind]
    · refine binary j1 j2 _ _ _ fun r => ?_
      rw [PSet.mem_diff]
      constructor
      · rintro ⟨ha, hb⟩
        obtain ⟨p, hp, hP, rfl⟩ := (j1.mem r).1 ha
        exact ⟨p, hp, ⟨hP, fun hQ => hb ((j2.toRec hp).2 hQ)⟩, rfl⟩
      · rintro ⟨p, hp, ⟨hP, hQ⟩, rfl⟩
        exact ⟨(j1.toRec hp).2 hP, fun hb => hQ ((j2.toRec hp).1 hb)⟩
  | xor a b iha ihb =>
    obtain ⟨ca, e1, j1⟩ := iha hx.1
    obtain ⟨cb, e2, j2⟩ := ihb hx.2
    refine ⟨Coll.binaryWith " ^ " (PSet.symm ca.items cb.items) ca cb, ?_, ?_⟩
    · show (do return both Coll.xor (← collOf W before order a.expr) (← collOf W before order b.expr)) = _
      rw [e1, e2]
      show some (both Coll.xor (.ok ca) (.ok cb)) = _
      simp [both, Coll.xor, j1.cls, j2.cls, bind, Except.bind]
    · refine binary j1 j2 _ _ _ fun r => ?_
      rw [PSet.mem_symm]
      constructor
      · rintro (⟨ha, hb⟩ | ⟨hb, ha⟩)
        · obtain ⟨p, hp, hP, rfl⟩ := (j1.mem r).1 ha
          exact ⟨p, hp, fun i => hb ((j2.toRec hp).2 (i.1 hP)), rfl⟩
        · obtain ⟨p, hp, hP, rfl⟩ := (j2.mem r).1 hb
          exact ⟨p, hp, fun i => ha ((j1.toRec hp).2 (i.2 hP)), rfl⟩
      · rintro ⟨p, hp, hn, rfl⟩
        rw [j1.toRec hp, j2.toRec hp]
        have hn' : ¬ (a.Has W.prims.upper p ↔ b.Has W.prims.upper p) := hn
        tauto
  | years s e m a iha =>
    obtain ⟨ca, e1, j1⟩ := iha hx.1
    have := inYears_eq before hf hint hy j1 s e m
    rw [if_neg (fun hc => by obtain ⟨hm, p, hp, hP, hl⟩ := hc; exact hx.2 hm p hp hP hl)] at this
    obtain ⟨c', e2, j2⟩ := this
    refine ⟨c', ?_, j2⟩
    show (do return (← collOf W before order a.expr).bind (inYears W before s e m)) = _
    rw [e1]
    exact congrArg some e2
  | ofType t d i a iha =>
    obtain ⟨ca, e1, j1⟩ := iha hx.1
    obtain ⟨c', e2, j2⟩ := onlyType_eq before hf j1 hx.2 t d i
    refine ⟨c', ?_, j2⟩
    show (do return (← collOf W before order a.expr).bind (onlyType W before t d i)) = _
    rw [e1]
    exact congrArg some e2

open Classical in
/-- The papers of the pool that are to be in the collection. -/
noncomputable def chosen (W : World) (pool : List Paper) (x : Plan) : List Paper := pool.filter (fun p => decide (x.Has W.prims.upper p))

theorem chosen_ok (hf : FileOk W.ws origin pool) (x : Plan) : FileOk W.ws origin (chosen W pool x) where
  each p hp := hf.each p (List.mem_filter.1 hp).1
  different := hf.different.sublist (List.filter_sublist.map _)
  origin := hf.origin

theorem pool_nodup (hf : FileOk W.ws origin pool) : pool.Nodup := List.Nodup.of_map _ hf.different

/-- **C121.** The collection of an expression over files is one that reading the file of just the papers it is to have could give: what is made of it is what is made of that
file. -/
theorem C121_like_file (h : Setting W order) (hf : FileOk W.ws origin pool) (hint : ∀ n : Nat, W.prims.int (showNat n) = some (n : Int)) (hy : YearsOk pool) (x : Plan)
    (hx : x.Ok W.ws W.prims.upper pool) : ∃ rs order', recordsOf W before order x.expr = some (.ok rs) ∧ Setting W order' ∧
      records W order' (fileText origin (chosen W pool x)) = some rs := by
  obtain ⟨c, e, j⟩ := eval_eq before h hf hint hy x hx
  have hperm : (order c.items).Perm ((chosen W pool x).map toRec) := by
    refine (h.perm _).trans ((List.perm_ext_iff_of_nodup j.nodup ?_).2 fun r => ?_)
    · exact (((pool_nodup hf).filter _).map_on (fun a _ b _ e => toRec_inj e))
    · rw [j.mem, List.mem_map]
      unfold chosen
      simp only [List.mem_filter, decide_eq_true_eq]
      constructor
      · rintro ⟨p, hp, hP, rfl⟩; exact ⟨p, ⟨hp, hP⟩, rfl⟩
      · rintro ⟨p, ⟨hp, hP⟩, rfl⟩; exact ⟨p, hp, hP, rfl⟩
  refine ⟨order c.items, fun l => if l = (chosen W pool x).map toRec then order c.items else l, ?_, ⟨h.nl, h.E, fun l => ?_⟩, ?_⟩
  · unfold recordsOf; rw [e]; rfl
  · split
    · rename_i hl; rw [hl]; exact hperm
    · exact List.Perm.refl _
  · rw [records_eq W _ h.nl h.E (chosen_ok hf x), if_pos rfl]

/-- The collection holds each of the papers it is to have once. -/
theorem C121_papers (h : Setting W order) (hf : FileOk W.ws origin pool) (hint : ∀ n : Nat, W.prims.int (showNat n) = some (n : Int)) (hy : YearsOk pool) (x : Plan)
    (hx : x.Ok W.ws W.prims.upper pool) : ∃ rs, recordsOf W before order x.expr = some (.ok rs) ∧ (rs.map Model.Wos.Rec.fields).Nodup ∧
      ∀ p, p ∈ rs.map Model.Wos.Rec.fields ↔ p ∈ pool ∧ x.Has W.prims.upper p := by
  obtain ⟨rs, order', h1, h2, h3⟩ := C121_like_file before h hf hint hy x hx
  refine ⟨rs, h1, ?_⟩
  rw [records_eq W _ h2.nl h2.E (chosen_ok hf x)] at h3
  have hperm : (rs.map Model.Wos.Rec.fields).Perm (chosen W pool x) := by
    rw [← Option.some.inj h3]
    refine ((h2.perm _).map _).trans ?_
    rw [List.map_map]
    exact List.Perm.of_eq (List.map_id _)
  refine ⟨hperm.nodup_iff.2 ((pool_nodup hf).filter _), fun p => ?_⟩
  rw [hperm.mem_iff]
  unfold chosen
  simp only [List.mem_filter, decide_eq_true_eq]

/-- Asking for some years and insisting that each paper has one: when a paper of the collection has none, the call raises `TypeError`. -/
theorem C121_missing (h : Setting W order) (hf : FileOk W.ws origin pool) (hint : ∀ n : Nat, W.prims.int (showNat n) = some (n : Int)) (hy : YearsOk pool) (x : Plan)
    (hx : x.Ok W.ws W.prims.upper pool) {p : Paper} (hp : p ∈ pool) (hP : x.Has W.prims.upper p) (hl : linesOf p "PY" = []) (s e : Int) :
    recordsOf W before order (Plan.years s e false x).expr = some (.error (.filter .typeError)) := by
  classical
  obtain ⟨c, e1, j⟩ := eval_eq before h hf hint hy x hx
  have := inYears_eq before hf hint hy j s e false
  rw [if_pos ⟨rfl, p, hp, hP, hl⟩] at this
  show Option.map _ (do return (← collOf W before order x.expr).bind (inYears W before s e false)) = _
  rw [e1]
  show some (Except.map _ (inYears W before s e false c)) = _
  rw [this]
  rfl

/-- **C121, co-authors.** The co-author network of the collection joins two names as often as a paper it is to have lists both. -/
theorem C121_coauthors (before' : Model.Wos.Rec → List (Op String FVal)) (h : Setting W order) (hf : FileOk W.ws origin pool)
    (hint : ∀ n : Nat, W.prims.int (showNat n) = some (n : Int)) (hy : YearsOk pool) (x : Plan) (hx : x.Ok W.ws W.prims.upper pool) (useShort weighted count : Bool) :
    ∃ rs g, recordsOf W before order x.expr = some (.ok rs) ∧ coAuthorsOf W before' useShort weighted count rs = .ok g ∧
      (∀ a b, g.edge? a b = edgeFor weighted ((chosen W pool x).map (fun p => pairsShared (linesOf p (if useShort then "AU" else "AF")) a b)).sum) ∧
      ∀ a, g.hasNode a = true ↔ ∃ p ∈ pool, x.Has W.prims.upper p ∧ a ∈ linesOf p (if useShort then "AU" else "AF") := by
  obtain ⟨rs, order', h1, h2, h3⟩ := C121_like_file before h hf hint hy x hx
  obtain ⟨g, g1, g2, g3⟩ := C104_coauthors before' h2 (chosen_ok hf x) useShort weighted count
  refine ⟨rs, g, h1, ?_, g2, fun a => ?_⟩
  · have : coAuthors W before' order' useShort weighted count (fileText origin (chosen W pool x)) =
        (records W order' (fileText origin (chosen W pool x))).map (coAuthorsOf W before' useShort weighted count) := rfl
    rw [this, h3] at g1
    exact Option.some.inj g1
  · rw [g3]
    unfold chosen
    simp only [List.mem_filter, decide_eq_true_eq, and_assoc]

/-- The weight of an edge, 0 where there is none. -/
def weight (g : Model.CoNetworks.CoNet Str Unit) (a b : Str) : Nat := match g.edge? a b with
  | some (some n) => n
  | _ => 0

theorem weight_edgeFor {g : Model.CoNetworks.CoNet Str Unit} {a b : Str} {n : Nat} (h : g.edge? a b = edgeFor true n) : weight g a b = n := by
  unfold weight
  rw [h]
  unfold edgeFor
  by_cases hn : n = 0
  · rw [if_pos hn, hn]
  · rw [if_neg hn]; rfl

open Classical in
theorem sum_chosen (x : Plan) (f : Paper → Nat) : ((chosen W pool x).map f).sum = (pool.map (fun p => if x.Has W.prims.upper p then f p else 0)).sum := by
  unfold chosen
  induction pool with
  | nil => rfl
  | cons p l ih =>
    rw [List.filter_cons, List.map_cons, List.sum_cons, ← ih]
    by_cases hp : x.Has W.prims.upper p
    · rw [if_pos (by simpa using hp), if_pos hp]; rfl
    · rw [if_neg (by simpa using hp), if_neg hp, Nat.zero_add]

theorem sum_split {x y z : Plan} (f : Paper → Nat) (h : ∀ p ∈ pool, x.Has W.prims.upper p ↔ y.Has W.prims.upper p ∨ z.Has W.prims.upper p)
    (hd : ∀ p ∈ pool, ¬ (y.Has W.prims.upper p ∧ z.Has W.prims.upper p)) :
    ((chosen W pool x).map f).sum = ((chosen W pool y).map f).sum + ((chosen W pool z).map f).sum := by
  classical
  rw [sum_chosen, sum_chosen, sum_chosen]
  induction pool with
  | nil => rfl
  | cons p l ih =>
    simp only [List.map_cons, List.sum_cons]
    rw [ih (fun q hq => h q (List.mem_cons_of_mem _ hq)) (fun q hq => hd q (List.mem_cons_of_mem _ hq))]
    have h1 := h p (by simp)
    have h2 := hd p (by simp)
    by_cases hy : y.Has W.prims.upper p <;> by_cases hz : z.Has W.prims.upper p
    · exact absurd ⟨hy, hz⟩ h2
    · rw [if_pos hy, if_neg hz, if_pos (h1.2 (.inl hy))]; omega
    · rw [if_neg hy, if_pos hz, if_pos (h1.2 (.inr hz))]; omega
    · rw [if_neg hy, if_neg hz, if_neg (fun e => (h1.1 e).elim hy hz)]; omega

/-- **C121, windows.** When some years are cut in two, the weights of the co-author network of all of them are the sums of those of the two parts. -/
theorem C121_windows (before' : Model.Wos.Rec → List (Op String FVal)) (h : Setting W order) (hf : FileOk W.ws origin pool)
    (hint : ∀ n : Nat, W.prims.int (showNat n) = some (n : Int)) (hy : YearsOk pool) (x : Plan) (hx : x.Ok W.ws W.prims.upper pool) (useShort count : Bool) (s m e : Int)
    (hsm : s ≤ m + 1) (hme : m ≤ e) :
    ∃ r1 r2 r g1 g2 g, recordsOf W before order (Plan.years s m true x).expr = some (.ok r1) ∧ recordsOf W before order (Plan.years (m + 1) e true x).expr = some (.ok r2) ∧
      recordsOf W before order (Plan.years s e true x).expr = some (.ok r) ∧ coAuthorsOf W before' useShort true count r1 = .ok g1 ∧
      coAuthorsOf W before' useShort true count r2 = .ok g2 ∧ coAuthorsOf W before' useShort true count r = .ok g ∧
      (∀ a b, weight g a b = weight g1 a b + weight g2 a b) ∧ r.length = r1.length + r2.length := by
  have hok : ∀ s e, (Plan.years s e true x).Ok W.ws W.prims.upper pool := fun s e => ⟨hx, fun hc => by cases hc⟩
  obtain ⟨r1, g1, a1, b1, c1, _⟩ := C121_coauthors before before' h hf hint hy _ (hok s m) useShort true count
  obtain ⟨r2, g2, a2, b2, c2, _⟩ := C121_coauthors before before' h hf hint hy _ (hok (m + 1) e) useShort true count
  obtain ⟨r, g, a, b, c, _⟩ := C121_coauthors before before' h hf hint hy _ (hok s e) useShort true count
  have hsplit : ∀ f : Paper → Nat, ((chosen W pool (.years s e true x)).map f).sum =
      ((chosen W pool (.years s m true x)).map f).sum + ((chosen W pool (.years (m + 1) e true x)).map f).sum := by
    intro f
    apply sum_split
    · intro p _
      show (x.Has _ p ∧ _) ↔ (x.Has _ p ∧ _) ∨ (x.Has _ p ∧ _)
      constructor
      · rintro ⟨hP, y, hy, h1, h2⟩
        by_cases hm : (y : Int) ≤ m
        · exact .inl ⟨hP, y, hy, h1, hm⟩
        · exact .inr ⟨hP, y, hy, by omega, h2⟩
      · rintro (⟨hP, y, hy, h1, h2⟩ | ⟨hP, y, hy, h1, h2⟩)
        · exact ⟨hP, y, hy, h1, by omega⟩
        · exact ⟨hP, y, hy, by omega, h2⟩
    · rintro p _ ⟨⟨_, y, hy, h1, h2⟩, ⟨_, z, hz, h3, h4⟩⟩
      have : y = z := showNat_inj hint (Option.some.inj (hy.2.2.symm.trans hz.2.2))
      subst this
      omega
  have hlen : ∀ s e rs, recordsOf W before order (Plan.years s e true x).expr = some (.ok rs) → rs.length = ((chosen W pool (.years s e true x)).map (fun _ => 1)).sum := by
    intro s e rs hrs
    obtain ⟨rs', order', h1, h2, h3⟩ := C121_like_file before h hf hint hy _ (hok s e)
    rw [records_eq W _ h2.nl h2.E (chosen_ok hf _)] at h3
    rw [hrs] at h1
    rw [Except.ok.inj (Option.some.inj h1), ← Option.some.inj h3, (h2.perm _).length_eq, List.length_map]
    simp
  refine ⟨r1, r2, r, g1, g2, g, a1, a2, a, b1, b2, b, fun u v => ?_, ?_⟩
  · rw [weight_edgeFor (c u v), weight_edgeFor (c1 u v), weight_edgeFor (c2 u v), hsplit]
  · rw [hlen _ _ _ a1, hlen _ _ _ a2, hlen _ _ _ a, hsplit]

end

/-! ## Two downloads that overlap, of which the papers of some years that are in a journal are taken -/

def p1 : Paper := [("PT".toList, ["J".toList]), ("AU".toList, ["Ada, B".toList, "Cy, D".toList]), ("PY".toList, ["1998".toList]), ("UT".toList, ["WOS:1".toList])]
def p2 : Paper := [("PT".toList, ["J".toList]), ("AU".toList, ["Ada, B".toList, "Cy, D".toList]), ("PY".toList, ["2001".toList]), ("UT".toList, ["WOS:2".toList])]
def p3 : Paper := [("PT".toList, ["B".toList]), ("AU".toList, ["Ada, B".toList, "Cy, D".toList]), ("PY".toList, ["2000".toList]), ("UT".toList, ["WOS:3".toList])]
def p4 : Paper := [("PT".toList, ["J".toList]), ("AU".toList, ["Ada, B".toList, "Eve".toList, "Cy, D".toList]), ("UT".toList, ["WOS:4".toList])]

theorem file_ok' (papers : List Paper) (hs : papers.Sublist [p1, p2, p3, p4]) : FileOk w.ws "FN Clarivate".toList papers where
  each := by
    intro p hp
    have hp := hs.subset hp
    simp only [List.mem_cons, List.not_mem_nil, or_false] at hp
    rcases hp with rfl | rfl | rfl | rfl <;>
    exact {
      fields := ⟨by
        intro f hf
        have : ∀ f ∈ [p1, p2, p3, p4].flatten, f.1.length = 2 ∧ f.1 ≠ "ER".toList ∧ f.1 ≠ "  ".toList ∧ f.2 ≠ [] ∧ '\n' ∉ f.1 ∧ ∀ v ∈ f.2, '\n' ∉ v := by decide +kernel
        obtain ⟨a, b, c, d, e, g⟩ := this f (List.mem_flatten.2 ⟨_, by simp, hf⟩)
        exact ⟨a, b, c, d, e, g⟩, by decide +kernel⟩
      noCR := by decide +kernel
      ut := by decide +kernel
      noJ9 := by decide +kernel
      first := by
        intro f hf
        obtain rfl := Option.some.inj hf
        exact ⟨by decide, 'P', by decide, by decide⟩ }
  different := List.Nodup.sublist (hs.map _) (by decide +kernel)
  origin := by decide +kernel

/-- `((a | b).yearSplit(1998, 2001))`, then `dropNonJournals()`, of two files that share a paper. -/
def plan : Plan := .ofType "j".toList true false (.years 1998 2001 true (.or (.file "FN Clarivate".toList [p1, p2]) (.file "FN Clarivate".toList [p2, p3, p4])))

theorem int_ok : ∀ n : Nat, w.prims.int (showNat n) = some (n : Int) := by
  intro n
  obtain ⟨h1, h2, h3⟩ := showAux_spec (n + 1) n (by omega)
  show (if (!(showNat n).isEmpty && (showNat n).all isDig) = true then some ((readNat (showNat n) : Nat) : Int) else none) = _
  rw [if_pos, readNat_showNat]
  have h4 : (showNat n).all isDig = true := List.all_eq_true.2 h2
  have h5 : (showNat n).isEmpty = false := by
    have : showNat n ≠ [] := h3
    simpa using this
  rw [h4, h5]; rfl

theorem years_ok : YearsOk [p1, p2, p3, p4] := by
  intro p hp
  simp only [List.mem_cons, List.not_mem_nil, or_false] at hp
  rcases hp with rfl | rfl | rfl | rfl
  · exact .inr ⟨1998, by decide, by decide, by decide +kernel⟩
  · exact .inr ⟨2001, by decide, by decide, by decide +kernel⟩
  · exact .inr ⟨2000, by decide, by decide, by decide +kernel⟩
  · exact .inl (by decide +kernel)

theorem plan_ok : plan.Ok w.ws w.prims.upper [p1, p2, p3, p4] := by
  refine ⟨⟨⟨⟨file_ok' _ (by decide +kernel), by decide +kernel⟩, ⟨file_ok' _ (by decide +kernel), by decide +kernel⟩⟩, fun h => by cases h⟩, fun p hp _ => ?_⟩
  have : ∀ p ∈ [p1, p2, p3, p4], linesOf p "PT" ≠ [] := by decide +kernel
  exact this p hp

/-- The first two papers are taken: the third is a book, and the fourth has no year. -/
example : ∃ rs, recordsOf w (fun _ => []) List.reverse plan.expr = some (.ok rs) ∧ p1 ∈ rs.map Model.Wos.Rec.fields ∧ p2 ∈ rs.map Model.Wos.Rec.fields ∧
    p3 ∉ rs.map Model.Wos.Rec.fields ∧ p4 ∉ rs.map Model.Wos.Rec.fields := by
  obtain ⟨rs, h1, _, h3⟩ := C121_papers (fun _ => []) setting (file_ok' _ (List.Sublist.refl _)) int_ok years_ok plan plan_ok
  refine ⟨rs, h1, (h3 p1).2 ⟨by simp, ?_⟩, (h3 p2).2 ⟨by simp, ?_⟩, fun h => ?_, fun h => ?_⟩
  · exact ⟨⟨.inl (by show p1 ∈ [p1, p2]; simp), 1998, ⟨by decide, by decide, by decide +kernel⟩, by decide⟩, by decide +kernel⟩
  · exact ⟨⟨.inl (by show p2 ∈ [p1, p2]; simp), 2001, ⟨by decide, by decide, by decide +kernel⟩, by decide⟩, by decide +kernel⟩
  · exact absurd ((h3 p3).1 h).2.2 (by decide +kernel)
  · obtain ⟨_, ⟨_, y, hy, _⟩, _⟩ := (h3 p4).1 h
    exact absurd hy.2.2 (by rw [show linesOf p4 "PY" = [] by decide +kernel]; simp)

/-- The papers before 2000 and those since. -/
example : ∃ r1 r2 r g1 g2 g, recordsOf w (fun _ => []) List.reverse (Plan.years 1990 1999 true (.file "FN Clarivate".toList [p1, p2, p3, p4])).expr = some (.ok r1) ∧
    recordsOf w (fun _ => []) List.reverse (Plan.years 2000 2010 true (.file "FN Clarivate".toList [p1, p2, p3, p4])).expr = some (.ok r2) ∧
    recordsOf w (fun _ => []) List.reverse (Plan.years 1990 2010 true (.file "FN Clarivate".toList [p1, p2, p3, p4])).expr = some (.ok r) ∧
    coAuthorsOf w (fun _ => []) true true true r1 = .ok g1 ∧ coAuthorsOf w (fun _ => []) true true true r2 = .ok g2 ∧ coAuthorsOf w (fun _ => []) true true true r = .ok g ∧
    (∀ a b, weight g a b = weight g1 a b + weight g2 a b) ∧ r.length = r1.length + r2.length :=
  C121_windows (fun _ => []) (fun _ => []) setting (file_ok' _ (List.Sublist.refl _)) int_ok years_ok (.file "FN Clarivate".toList [p1, p2, p3, p4])
    ⟨file_ok' _ (List.Sublist.refl _), fun _ h => h⟩ true true 1990 1999 2010 (by decide) (by decide)

/-- Insisting on years fails because of the fourth paper. -/
example : recordsOf w (fun _ => []) List.reverse (Plan.years 1990 2010 false (.file "FN Clarivate".toList [p1, p2, p3, p4])).expr = some (.error (.filter .typeError)) :=
  C121_missing (fun _ => []) setting (file_ok' _ (List.Sublist.refl _)) int_ok years_ok (.file "FN Clarivate".toList [p1, p2, p3, p4])
    ⟨file_ok' _ (List.Sublist.refl _), fun _ h => h⟩ (p := p4) (by simp) (by show p4 ∈ _; simp) (by decide +kernel) 1990 2010

end Verif.Props.Derived
