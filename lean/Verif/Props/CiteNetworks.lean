import Verif.Lemmas.CiteNetworks

/-! # C16, C17, C19, C20: citation filtering, co-citation and citation networks -/
set_option autoImplicit false
set_option linter.unusedSectionVars false
set_option linter.unusedSimpArgs false
namespace Verif.Props
open Verif.Py Verif.Py.Graph Verif.Model.Citation Verif.Model.CiteNetworks Verif.Model.CoNetworks Verif.Model.Networks
  Verif.Spec

/-! ## C19 -/

/-- C19, for citations that have the attribute the node type uses: kept exactly when wanted, order and multiplicity
preserved. Missing from the full claim: citation objects without the attribute, see `C19_no_attribute`. -/
theorem C19_filter_partial (env : Env) (nt : NodeType) (dropAnon dropNonJournals : Bool) (kw : KeyWords)
    (core : Option (List Cite)) :
    ∃ p : Cite → Bool, (∀ c, HasAttr nt c → (p c = true ↔ Wanted env nt dropAnon dropNonJournals kw core c)) ∧
      ∀ cites, filterCites env nt dropAnon dropNonJournals kw core cites = cites.filter p := by
  refine ⟨keepB env nt dropAnon dropNonJournals kw core, fun c hc => ?_, fun cites => filterCites_eq _ _ _ _ _ _ _⟩
  rw [keepB_iff, emptyAttr_iff nt c hc]
  rfl

/-- C19, the failure: a citation object without the attribute the node type uses (a Scopus citation that could not be
read) passes the filter when nothing else is asked. -/
theorem C19_no_attribute (env : Env) (nt : NodeType) (c : Cite) (h : ¬ HasAttr nt c) :
    filterCites env nt false false .none none [c] = [c] := by
  rw [filterCites_eq]
  have : keepB env nt false false .none none c = true := by
    rw [keepB_iff]
    refine ⟨?_, by simp, by simp, by simp, by simp [KeyWords.toList]⟩
    cases nt
    · simp
    · simp [HasAttr] at h
    · simp only [HasAttr, ne_eq, not_not] at h; simp [emptyAttr, h]
    · simp only [HasAttr, ne_eq, not_not] at h; simp [emptyAttr, h]
    · simp only [HasAttr, ne_eq, not_not] at h; simp [emptyAttr, h]
  simp [this]

private def mk (id : String) (a : Option String) (y : Option Int) (j : Option String) : Cite where
  id := id.toList
  original := id.toList
  author := some (a.map String.toList)
  year := some y
  journal := some (j.map String.toList)
  V := some none
  P := some none
  misc := some none
  bad := false

private def env0 : Env where
  upper := fun s => s.map Char.toUpper
  isJournal := fun c => c.journal == some (some "J".toList)
  hash := fun s => s.foldl (fun n c => n * 256 + c.toNat) 7

private def cA := mk "A, 1990, J" (some "A") (some 1990) (some "J")
private def cB := mk "B, 1991, K" (some "B") (some 1991) (some "K")
private def cN := mk "1991, J" none (some 1991) (some "J")
private def cX := mk "[Anonymous], 1991, J" (some "[Anonymous]") (some 1991) (some "J")

example : filterCites env0 .author true true (.one "b,".toList) (some [cA, cB]) [cA, cB, cN, cA, cX] = [cA, cA] ∧
    filterCites env0 .full true false (.one "b,".toList) none [cA, cB, cN, cA, cX] = [cA, cN, cA] ∧
    HasAttr .author cN ∧ ¬ HasAttr .author { cA with author := none } := by
  refine ⟨by decide, by decide, by simp [HasAttr, cN, mk], by simp [HasAttr]⟩

/-! ## C20 -/

/-- A citation is to a journal: its journal field is an abbreviation whose (first) full name is not empty. -/
def IsJournal (db : Dict Str (List Str)) (c : Cite) : Prop :=
  ∃ j name names, c.journal = some (some j) ∧ j ≠ [] ∧ db.get? j = some (name :: names) ∧ name ≠ []

/-- The journal of the citation is an abbreviation listed without any name. -/
def Nameless (db : Dict Str (List Str)) (c : Cite) : Prop := ∃ j, c.journal = some (some j) ∧ j ≠ [] ∧ db.get? j = some []

theorem isJournal_spec (db : Dict Str (List Str)) (c : Cite) (hdb : ¬ Nameless db c) :
    ∃ b, isJournal db c = .ok b ∧ (b = true ↔ IsJournal db c) := by
  unfold isJournal IsJournal
  rcases hj : c.journal with _ | _ | _ | ⟨a, j⟩
  · exact ⟨false, rfl, by simp⟩
  · exact ⟨false, rfl, by simp⟩
  · exact ⟨false, rfl, by simp⟩
  · simp only
    cases hd : db.get? (a :: j) with
    | none =>
      refine ⟨false, rfl, ?_⟩
      constructor
      · simp
      · rintro ⟨j', name, names, h1, _, h2, _⟩
        simp only [Option.some.injEq] at h1
        subst h1; rw [hd] at h2; cases h2
    | some l =>
      cases l with
      | nil => exact absurd ⟨a :: j, hj, by simp, hd⟩ hdb
      | cons name names =>
        refine ⟨!name.isEmpty, rfl, ?_⟩
        constructor
        · intro h
          refine ⟨a :: j, name, names, rfl, by simp, hd, ?_⟩
          rintro rfl; simp at h
        · rintro ⟨j', name', names', h1, _, h2, h3⟩
          simp only [Option.some.injEq] at h1
          subst h1
          rw [hd] at h2
          simp only [Option.some.injEq, List.cons.injEq] at h2
          rw [h2.1]
          cases name' with
          | nil => exact absurd rfl h3
          | cons _ _ => rfl

theorem isJournal_nameless (db : Dict Str (List Str)) (c : Cite) (h : Nameless db c) : isJournal db c = .error .indexError := by
  obtain ⟨j, hj, hne, hdb⟩ := h
  cases j with
  | nil => exact absurd rfl hne
  | cons a j => simp [isJournal, hj, hdb]

theorem filterNonJournals_ok (db : Dict Str (List Str)) (invert : Bool) (p : Cite → Bool) (cites : List Cite)
    (hp : ∀ c ∈ cites, isJournal db c = .ok (p c)) :
    filterNonJournals db invert cites = .ok (cites.filter (fun c => p c != invert)) := by
  unfold filterNonJournals
  suffices h : ∀ acc : List Cite, cites.foldlM (fun ret c => do
      let j ← isJournal db c
      if j then
        if !invert then .ok (ret ++ [c]) else .ok ret
      else if invert then .ok (ret ++ [c])
      else .ok ret) acc = (.ok (acc ++ cites.filter (fun c => p c != invert)) : Except JErr (List Cite)) from h []
  induction cites with
  | nil => intro acc; simp [pure, Except.pure]
  | cons c cites ih =>
    intro acc
    have ih := ih (fun d hd => hp d (by simp [hd]))
    rw [List.foldlM_cons, hp c (by simp), List.filter_cons]
    cases p c <;> cases invert
    · simpa [bind, Except.bind] using ih acc
    · simpa [bind, Except.bind] using ih (acc ++ [c])
    · simpa [bind, Except.bind] using ih (acc ++ [c])
    · simpa [bind, Except.bind] using ih acc

/-- C20: if no citation of the list has a journal listed without any name, the two calls split the list by the journal test, in order, with
multiplicity, every citation in exactly one part. -/
theorem C20_partition (db : Dict Str (List Str)) (cites : List Cite) (hdb : ∀ c ∈ cites, ¬ Nameless db c) :
    ∃ p : Cite → Bool, (∀ c ∈ cites, p c = true ↔ IsJournal db c) ∧
      filterNonJournals db false cites = .ok (cites.filter p) ∧
      filterNonJournals db true cites = .ok (cites.filter (fun c => !p c)) ∧
      (cites.filter p ++ cites.filter (fun c => !p c)).Perm cites := by
  have hsp := fun c hc => isJournal_spec db c (hdb c hc)
  let p : Cite → Bool := fun c => match isJournal db c with
    | .ok b => b
    | .error _ => false
  have hp : ∀ c ∈ cites, isJournal db c = .ok (p c) := by
    intro c hc
    obtain ⟨b, hb, _⟩ := hsp c hc
    simp only [p, hb]
  refine ⟨p, fun c hc => ?_, ?_, ?_, List.filter_append_perm p cites⟩
  · obtain ⟨b, hb, hb2⟩ := hsp c hc
    have : p c = b := by simp only [p, hb]
    rw [this]; exact hb2
  · rw [filterNonJournals_ok db false p cites hp]; simp
  · rw [filterNonJournals_ok db true p cites hp]; simp

/-- C20: otherwise both calls raise `IndexError`, whatever else the list holds. -/
theorem C20_empty_entry_raises (db : Dict Str (List Str)) (invert : Bool) (cites : List Cite) (h : ∃ c ∈ cites, Nameless db c) :
    filterNonJournals db invert cites = .error .indexError := by
  unfold filterNonJournals
  suffices hs : ∀ acc : List Cite, cites.foldlM (fun ret c => do
      let j ← isJournal db c
      if j then
        if !invert then .ok (ret ++ [c]) else .ok ret
      else if invert then .ok (ret ++ [c])
      else .ok ret) acc = (.error .indexError : Except JErr (List Cite)) from hs []
  induction cites with
  | nil => obtain ⟨c, hc, _⟩ := h; simp at hc
  | cons c cites ih =>
    intro acc
    rw [List.foldlM_cons]
    by_cases hc : Nameless db c
    · rw [isJournal_nameless db c hc]; rfl
    · have h' : ∃ c ∈ cites, Nameless db c := by
        obtain ⟨d, hd, hn⟩ := h
        rcases List.mem_cons.1 hd with rfl | hd
        · exact absurd hn hc
        · exact ⟨d, hd, hn⟩
      obtain ⟨b, hb, _⟩ := isJournal_spec db c hc
      rw [hb]
      cases b <;> cases invert
      · simpa [bind, Except.bind] using ih h' acc
      · simpa [bind, Except.bind] using ih h' (acc ++ [c])
      · simpa [bind, Except.bind] using ih h' (acc ++ [c])
      · simpa [bind, Except.bind] using ih h' acc

private def db0 : Dict Str (List Str) := [("J".toList, ["Journal".toList]), ("K".toList, [[]])]
example : filterNonJournals db0 false [cA, cB, cN, cA] = .ok [cA, cN, cA] ∧
    filterNonJournals db0 true [cA, cB, cN, cA] = .ok [cB] ∧ (∀ e ∈ db0, e.2 ≠ []) := by decide

/-! ## C16 -/

variable {ρ ι : Type} [Inhabited ι]

/-- What the model keeps. -/
def keptM (env : Env) (o : Opts) (own : ρ → Cite) (cites : ρ → Option (List Cite)) (recs : List ρ) (r : ρ) : List Cite :=
  filterCites env o.nodeType o.dropAnon o.dropNonJournals o.keyWords (if o.coreOnly then some (recs.map own) else none)
    ((cites r).getD [])

theorem emptyAttr_not (nt : NodeType) (c : Cite) (h : ¬ HasAttr nt c) : (nt ≠ .full && emptyAttr nt c : Bool) = false := by
  cases nt
  · simp
  · simp [HasAttr] at h
  · simp only [HasAttr, ne_eq, not_not] at h; simp [emptyAttr, h]
  · simp only [HasAttr, ne_eq, not_not] at h; simp [emptyAttr, h]
  · simp only [HasAttr, ne_eq, not_not] at h; simp [emptyAttr, h]

theorem enters_iff (env : Env) (o : Opts) (own : ρ → Cite) (recs : List ρ) (c : Cite) :
    keepB env o.nodeType o.dropAnon o.dropNonJournals o.keyWords (if o.coreOnly then some (recs.map own) else none) c = true ↔
      Enters env o own recs c := by
  rw [keepB_iff]
  unfold Enters
  refine and_congr ?_ (and_congr Iff.rfl (and_congr Iff.rfl (and_congr ?_ Iff.rfl)))
  · by_cases h : HasAttr o.nodeType c
    · rw [emptyAttr_iff _ _ h]; simp [h]
    · rw [emptyAttr_not _ _ h]; simp [h]
  · cases o.coreOnly <;> simp

theorem keptCites_eq (env : Env) (o : Opts) (own : ρ → Cite) (cites : ρ → Option (List Cite)) (recs : List ρ) :
    keptCites env o own cites recs = keptM env o own cites recs := by
  funext r
  unfold keptCites keptM
  rw [filterCites_eq]
  apply List.filter_congr
  intro c _
  classical
  rw [Bool.eq_iff_iff, enters_iff]; exact decide_eq_true_iff

theorem keptCites_perm (env : Env) (o : Opts) (own : ρ → Cite) (cites : ρ → Option (List Cite)) (recs recs' : List ρ) (hp : recs.Perm recs') :
    keptCites env o own cites recs' = keptCites env o own cites recs := by
  funext r
  unfold keptCites
  apply List.filter_congr
  intro c _
  have : Enters env o own recs' c ↔ Enters env o own recs c := by
    unfold Enters
    refine and_congr Iff.rfl (and_congr Iff.rfl (and_congr Iff.rfl (and_congr ?_ Iff.rfl)))
    simp only [hp.mem_iff]
  classical
  exact decide_eq_decide.2 this

theorem kept_value {env : Env} {o : Opts} {own : ρ → Cite} {recs : List ρ} {cs : List Cite} {c : Cite}
    (hc : c ∈ keep env o own recs cs) (ha : HasAttr o.nodeType c) : HasValue o.nodeType c := by
  unfold keep at hc
  rw [filterCites_eq, List.mem_filter, keepB_iff] at hc
  exact (emptyAttr_iff _ _ ha).1 hc.2.1

theorem keep_nil (env : Env) (o : Opts) (own : ρ → Cite) (recs : List ρ) : keep env o own recs [] = [] := rfl

/-- C16: when every kept citation has the attribute the node type uses, the network is built; the edge between two works
has as weight the number of pairs of positions at which one record cites both, and is missing when no record does; nodes
are the kept citations, counted by their number of occurrences, with the information of the first. -/
theorem C16_cocitation (env : Env) (o : Opts) (info : Cite → ι) (own : ρ → Cite) (cites : ρ → Option (List Cite))
    (recs : List ρ) (hattr : ∀ r ∈ recs, ∀ c ∈ keptCites env o own cites recs r, HasAttr o.nodeType c) :
    ∃ g, networkCoCitation env o info own cites recs = .ok g ∧ g.WF ∧ g.directed = false ∧
      (∀ u v, g.edge? u v = edgeFor o.weighted
        (recs.map (fun r => pairsShared ((keptCites env o own cites recs r).map (nodeName o.nodeType)) u v)).sum) ∧
      (∀ n, g.node? n =
        ((recs.flatMap (keptCites env o own cites recs)).find? (fun c => decide (nodeName o.nodeType c = n))).map (fun c =>
          { count := if o.count then
              some (recs.map (fun r => ((keptCites env o own cites recs r).map (nodeName o.nodeType)).count n)).sum else none,
            info := info c })) := by
  simp only [keptCites_eq] at hattr ⊢
  let K := keptM env o own cites recs
  let B : ρ → Block ι := fun r => ⟨none, citedOf o.nodeType info (K r), pairs ((K r).map (nodeName o.nodeType))⟩
  have hrun : networkCoCitation env o info own cites recs =
      .ok (run o.weighted (citeUpd o.count) (Graph.empty false) (recs.flatMap (fun r => (B r).evs))) := by
    unfold networkCoCitation
    apply foldlM_run
    intro r hr g
    have hk : ∀ c ∈ K r, HasAttr o.nodeType c ∧ HasValue o.nodeType c :=
      fun c hc => ⟨hattr r hr c hc, kept_value hc (hattr r hr c hc)⟩
    rcases hc : cites r with _ | _ | ⟨c, cs⟩
    · have : K r = [] := by simp only [K, keptM, hc]; rfl
      simp only [B, this]; rfl
    · have : K r = [] := by simp only [K, keptM, hc]; rfl
      simp only [B, this]; rfl
    · have : keep env o own recs (c :: cs) = K r := by simp only [K, keptM, hc]; rfl
      simp only [this]
      exact addToNetwork_none _ _ _ _ _ _ _ hk
  have hbs := blocks_spec o.count o.weighted false (recs.map B)
    (by intro b hb; obtain ⟨r, _, rfl⟩ := List.mem_map.1 hb; exact closed_pairs _ _ _ _)
  rw [List.flatMap_map] at hbs
  obtain ⟨h1, h2, h3, h4⟩ := hbs
  refine ⟨_, hrun, h1, h2, fun u v => ?_, fun n => ?_⟩
  · rw [h3, List.map_map]
    congr 3
    funext r
    exact countP_pairs u v _
  · rw [h4, List.map_map, List.flatMap_map]
    have e1 : (fun b : Block ι => (b.cited.map Prod.fst).count n) ∘ B =
        fun r => ((K r).map (nodeName o.nodeType)).count n := by
      funext r; simp [B, citedOf, Function.comp_def]
    have e2 : recs.flatMap (fun r => (B r).all) = (recs.flatMap K).map (fun c => (false, nodeName o.nodeType c, info c)) := by
      rw [List.map_flatMap]
      congr 1
      funext r
      simp [B, Block.all, citedOf, Function.comp_def]
    rw [e1, e2, List.find?_map]
    simp only [Function.comp_def]
    rw [Option.map_map]
    simp only [Function.comp_def, Bool.false_eq_true, if_false, Nat.zero_add]
    rfl

/-- C16: the order in which the records are visited does not matter for the edges and, apart from the information strings,
for the nodes. -/
theorem C16_order_independent (env : Env) (o : Opts) (info : Cite → ι) (own : ρ → Cite) (cites : ρ → Option (List Cite))
    (recs recs' : List ρ) (hp : recs.Perm recs')
    (hattr : ∀ r ∈ recs, ∀ c ∈ keptCites env o own cites recs r, HasAttr o.nodeType c) :
    ∃ g g', networkCoCitation env o info own cites recs = .ok g ∧ networkCoCitation env o info own cites recs' = .ok g' ∧
      (∀ u v, g.edge? u v = g'.edge? u v) ∧ (∀ n, (g.node? n).map CoAttr.count = (g'.node? n).map CoAttr.count) := by
  have hK : keptCites env o own cites recs' = keptCites env o own cites recs := keptCites_perm env o own cites recs recs' hp
  obtain ⟨g, h1, _, _, h3, h4⟩ := C16_cocitation env o info own cites recs hattr
  obtain ⟨g', h1', _, _, h3', h4'⟩ := C16_cocitation env o info own cites recs'
    (by intro r hr c hc; rw [hK] at hc; exact hattr r (hp.mem_iff.2 hr) c hc)
  refine ⟨g, g', h1, h1', fun u v => ?_, fun n => ?_⟩
  · rw [h3, h3', hK, sum_perm (hp.map _)]
  · rw [h4, h4', hK, sum_perm (hp.map _), Option.map_map, Option.map_map]
    have hs : ∀ (l l' : List Cite) (p : Cite → Bool) (x : Option Nat), l.Perm l' →
        (l.find? p).map (fun _ => x) = (l'.find? p).map (fun _ => x) := by
      intro l l' p x hl
      have : (l.find? p).isSome = (l'.find? p).isSome := by
        rw [Bool.eq_iff_iff, List.find?_isSome, List.find?_isSome]
        constructor <;> rintro ⟨a, ha, hpa⟩
        · exact ⟨a, hl.mem_iff.1 ha, hpa⟩
        · exact ⟨a, hl.mem_iff.2 ha, hpa⟩
      cases h : l.find? p <;> cases h' : l'.find? p <;> simp_all
    exact hs _ _ _ _ (hp.flatMap_right _)

theorem mapM_err {A B E : Type} (f : A → Except E B) (e : E) (l : List A) (h : ∀ a ∈ l, (∃ b, f a = .ok b) ∨ f a = .error e)
    (hex : ∃ a ∈ l, f a = .error e) : l.mapM f = .error e := by
  induction l with
  | nil => obtain ⟨a, ha, _⟩ := hex; simp at ha
  | cons a l ih =>
    rw [List.mapM_cons]
    rcases h a (by simp) with ⟨b, hb⟩ | hb
    · rw [hb]
      obtain ⟨a', ha', he⟩ := hex
      rcases List.mem_cons.1 ha' with rfl | ha'
      · rw [hb] at he; cases he
      · have := ih (fun x hx => h x (by simp [hx])) ⟨a', ha', he⟩
        simp [bind, Except.bind, this]
    · rw [hb]; rfl

theorem makeID_err {nt : NodeType} {c : Cite} (h : ¬ HasAttr nt c) : makeID nt c = .error .attributeError := by
  cases nt <;> simp only [HasAttr, not_true_eq_false, ne_eq, not_not] at h
  all_goals simp [makeID, h]

/-- C16: a kept citation without the attribute makes the whole call fail. -/
theorem C16_attribute_error (env : Env) (o : Opts) (info : Cite → ι) (own : ρ → Cite) (cites : ρ → Option (List Cite))
    (recs : List ρ) (h : ∃ r ∈ recs, ∃ c ∈ keptCites env o own cites recs r, ¬ HasAttr o.nodeType c) :
    networkCoCitation env o info own cites recs = .error .attributeError := by
  simp only [keptCites_eq] at h
  unfold networkCoCitation
  have key : ∀ (core rs : List ρ), (∃ r ∈ rs, ∃ c ∈ keptM env o own cites core r, ¬ HasAttr o.nodeType c) →
      ∀ g : CiteNet ι, rs.foldlM (fun g r =>
        match cites r with
        | none => .ok g
        | some [] => .ok g
        | some cs => addToNetwork o.nodeType o.count o.weighted true info none (keep env o own core cs) g) g =
          (.error .attributeError : Except NetErr (CiteNet ι)) := by
    intro core rs
    induction rs with
    | nil => rintro ⟨r, hr, _⟩; simp at hr
    | cons r rs ih =>
      intro hex g
      rw [List.foldlM_cons]
      by_cases hr : ∃ c ∈ keptM env o own cites core r, ¬ HasAttr o.nodeType c
      · have herr : (keptM env o own cites core r).mapM (makeID o.nodeType) = .error .attributeError := by
          apply mapM_err
          · intro c hc
            by_cases ha : HasAttr o.nodeType c
            · exact Or.inl ⟨_, makeID_ok ha (kept_value (cs := (cites r).getD []) hc ha)⟩
            · exact Or.inr (makeID_err ha)
          · obtain ⟨c, hc, ha⟩ := hr
            exact ⟨c, hc, makeID_err ha⟩
        rcases hcr : cites r with _ | _ | ⟨c, cs⟩
        · obtain ⟨c, hc, _⟩ := hr; simp [keptM, hcr, filterCites] at hc
        · obtain ⟨c, hc, _⟩ := hr; simp [keptM, hcr, filterCites] at hc
        · have : keep env o own core (c :: cs) = keptM env o own cites core r := by
            simp only [keptM, hcr]; rfl
          simp only [this, addToNetwork, herr]
          rfl
      · have hrest : ∃ r ∈ rs, ∃ c ∈ keptM env o own cites core r, ¬ HasAttr o.nodeType c := by
          obtain ⟨r', hr', hc⟩ := hex
          rcases List.mem_cons.1 hr' with rfl | hr'
          · exact absurd hc hr
          · exact ⟨r', hr', hc⟩
        have hk : ∀ c ∈ keptM env o own cites core r, HasAttr o.nodeType c ∧ HasValue o.nodeType c := by
          intro c hc
          have ha : HasAttr o.nodeType c := by by_contra hn; exact hr ⟨c, hc, hn⟩
          exact ⟨ha, kept_value (cs := (cites r).getD []) hc ha⟩
        rcases hcr : cites r with _ | _ | ⟨c, cs⟩
        · exact ih hrest _
        · exact ih hrest _
        · have : keep env o own core (c :: cs) = keptM env o own cites core r := by
            simp only [keptM, hcr]; rfl
          simp only [this, addToNetwork_none _ _ _ _ _ _ _ hk]
          exact ih hrest _
  exact key recs recs h _

private def oA : Opts := ⟨.full, true, false, .none, false, true, true⟩
private def cites3 (r : Nat) : Option (List Cite) := if r = 0 then some [cA, cB] else if r = 1 then some [cB, cA, cN, cX] else none
private def own3 (r : Nat) : Cite := if r = 0 then mk "R0, 2000, J" (some "R0") (some 2000) (some "J") else
  if r = 1 then cA else mk "R2, 2002, J" (some "R2") (some 2002) (some "J")

example : ∃ g, networkCoCitation env0 oA (fun _ => ()) own3 cites3 [0, 1, 2] = .ok g ∧
    g.edge? (.str cB.id) (.str cA.id) = some (some 2) ∧ g.edge? (.str cB.id) (.str cN.id) = some (some 1) ∧
    g.node? (.str cX.id) = none ∧ g.node? (.str cA.id) = some ⟨some 2, ()⟩ := by
  refine ⟨_, rfl, ?_⟩
  decide

/-! ## C17 -/

/-- The records that take part in the model. -/
def citingM (env : Env) (o : Opts) (own : ρ → Cite) (cites : ρ → Option (List Cite)) (recs : List ρ) : List ρ :=
  recs.filter (fun r =>
    decide (own r ∈ filterCites env o.nodeType o.dropAnon o.dropNonJournals o.keyWords
      (if o.coreOnly then some (recs.map own) else none) [own r]) && !((cites r).getD []).isEmpty)

theorem citing_eq (env : Env) (o : Opts) (own : ρ → Cite) (cites : ρ → Option (List Cite)) (recs : List ρ) :
    citing env o own cites recs = citingM env o own cites recs := by
  unfold citing citingM
  apply List.filter_congr
  intro r _
  have h : own r ∈ filterCites env o.nodeType o.dropAnon o.dropNonJournals o.keyWords
      (if o.coreOnly then some (recs.map own) else none) [own r] ↔ Enters env o own recs (own r) := by
    rw [filterCites_eq, List.mem_filter, enters_iff]; simp
  classical
  have h2 : ∀ (p : Prop) [Decidable p] (b : Bool), (p ↔ b = true) → decide p = b := by
    intro p _ b hb; cases b <;> simp_all
  apply h2
  rw [Bool.and_eq_true]
  refine (and_congr (h.symm.trans decide_eq_true_iff.symm) ?_)
  cases (cites r).getD [] <;> simp

/-- The cases in which the direction option is honoured. -/
def DirectionOk (o : Opts) (recordToCite : Bool) : Prop :=
  ((o.nodeType = .full ∨ o.nodeType = .original) ∧ (o.weighted = true ∨ recordToCite = true)) ∨
    (o.weighted = true ∧ recordToCite = true)

theorem keep_single (env : Env) (o : Opts) (own : ρ → Cite) (recs : List ρ) (c : Cite) :
    ((keep env o own recs [c]).length == 0) = !decide (c ∈ keep env o own recs [c]) := by
  unfold keep
  rw [filterCites_eq, List.filter_cons]
  generalize keepB _ _ _ _ _ _ _ = b
  cases b <;> simp

theorem flatMap_if {A B : Type} (q : A → Bool) (f : A → List B) (l : List A) :
    l.flatMap (fun a => if q a then f a else []) = (l.filter q).flatMap f := by
  induction l with
  | nil => rfl
  | cons a l ih =>
    rw [List.flatMap_cons, List.filter_cons, ih]
    cases q a <;> simp

/-- C17, when the direction option is honoured: the network is built; every edge joins a record that takes part to a kept
citation it lists, in the direction asked for, its weight is the number of times it is listed, and every such pair is
joined. The node counts are the numbers of times a work is listed, plus one when its first mention is as a citing record.
Missing from the full claim: the other option values, see the theorems below, and records without an identifying string. -/
theorem C17_citation_partial (env : Env) (o : Opts) (directed recordToCite : Bool) (info : Cite → ι) (own : ρ → Cite)
    (cites : ρ → Option (List Cite)) (recs : List ρ) (hmode : DirectionOk o recordToCite)
    (hown : ∀ r ∈ recs, HasAttr o.nodeType (own r) ∧ (own r).year ≠ none)
    (hid : o.nodeType = .full → ∀ r ∈ recs, (own r).id ≠ [])
    (hattr : ∀ r ∈ recs, ∀ c ∈ keptCites env o own cites recs r, HasAttr o.nodeType c) :
    ∃ g, networkCitation env o directed recordToCite info own cites recs = .ok g ∧ g.WF ∧ g.directed = directed ∧
      (∀ u v, g.edge? u v = edgeFor o.weighted ((citing env o own cites recs).map (fun r =>
        headLinks directed recordToCite (nodeName o.nodeType (own r))
          ((keptCites env o own cites recs r).map (nodeName o.nodeType)) u v)).sum) ∧
      (∀ n, g.node? n =
        (((citing env o own cites recs).flatMap (fun r =>
            (true, own r) :: (keptCites env o own cites recs r).map (fun c => (false, c)))).find?
          (fun p => decide (nodeName o.nodeType p.2 = n))).map (fun p =>
            { count := if o.count then some ((if p.1 then 1 else 0) + ((citing env o own cites recs).map (fun r =>
                ((keptCites env o own cites recs r).map (nodeName o.nodeType)).count n)).sum) else none,
              info := info p.2 })) := by
  simp only [keptCites_eq, citing_eq] at hattr ⊢
  let K := keptM env o own cites recs
  let B : ρ → Block ι := fun r => ⟨some (nodeName o.nodeType (own r), info (own r)), citedOf o.nodeType info (K r),
    headEdges recordToCite (nodeName o.nodeType (own r)) ((K r).map (nodeName o.nodeType))⟩
  have hwhole : (o.nodeType.whole = true ∧ (o.weighted = true ∨ recordToCite = true)) ∨
      (o.weighted = true ∧ recordToCite = true) := by
    rcases hmode with ⟨h | h, h2⟩ | h
    · exact Or.inl ⟨by rw [h]; rfl, h2⟩
    · exact Or.inl ⟨by rw [h]; rfl, h2⟩
    · exact Or.inr h
  have hrun : networkCitation env o directed recordToCite info own cites recs =
      .ok (run o.weighted (citeUpd o.count) (Graph.empty directed)
        (recs.flatMap (fun r => if decide (own r ∈ keep env o own recs [own r]) && !((cites r).getD []).isEmpty
          then (B r).evs else []))) := by
    unfold networkCitation
    apply foldlM_run
    intro r hr g
    rw [keep_single]
    by_cases hk : own r ∈ keep env o own recs [own r]
    · simp only [hk, decide_true, Bool.not_true, Bool.false_eq_true, if_false, Bool.true_and]
      rcases hc : cites r with _ | _ | ⟨c, cs⟩
      · simp
      · simp
      · have e : keep env o own recs (c :: cs) = K r := by simp only [K, keptM, hc]; rfl
        have hv := kept_value hk (hown r hr).1
        simp only [e, Option.getD_some, List.isEmpty_cons, Bool.not_false, if_true]
        refine addToNetwork_some _ _ _ _ _ _ _ _ hwhole ⟨(hown r hr).1, hv⟩ (fun _ => (hown r hr).2) ?_
          (fun c hc => ⟨hattr r hr c hc, kept_value (cs := (cites r).getD []) hc (hattr r hr c hc)⟩)
        cases hnt : o.nodeType
        · have := hid hnt r hr
          simp only [nodeName, NodeId.truthy]
          cases h : (own r).id with
          | nil => exact absurd h this
          | cons _ _ => rfl
        all_goals rw [hnt] at hv
        · simp only [HasValue] at hv
          simp only [nodeName, NodeId.truthy]
          cases h : (own r).original with
          | nil => exact absurd h hv
          | cons _ _ => rfl
        · obtain ⟨s, hs, hs2⟩ := hv
          simp only [nodeName, NodeId.truthy, hs, Option.getD_some]
          cases s with
          | nil => exact absurd rfl hs2
          | cons _ _ => rfl
        · obtain ⟨s, hs, hs2⟩ := hv
          simp only [nodeName, NodeId.truthy, hs, Option.getD_some]
          cases s with
          | nil => exact absurd rfl hs2
          | cons _ _ => rfl
        · obtain ⟨y, hy, hy2⟩ := hv
          simp only [nodeName, NodeId.truthy, hy, Option.getD_some]
          simpa using hy2
    · simp [hk]
  have hfl : recs.flatMap (fun r => if decide (own r ∈ keep env o own recs [own r]) && !((cites r).getD []).isEmpty
          then (B r).evs else []) = ((citingM env o own cites recs).map B).flatMap Block.evs := by
    rw [List.flatMap_map]
    have : citingM env o own cites recs = recs.filter (fun r =>
      decide (own r ∈ keep env o own recs [own r]) && !((cites r).getD []).isEmpty) := rfl
    rw [this]
    exact flatMap_if _ _ _
  rw [hfl] at hrun
  obtain ⟨h1, h2, h3, h4⟩ := blocks_spec o.count o.weighted directed ((citingM env o own cites recs).map B)
    (by intro b hb; obtain ⟨r, _, rfl⟩ := List.mem_map.1 hb; exact closed_head _ _ _ _ _ _)
  refine ⟨_, hrun, h1, h2, fun u v => ?_, fun n => ?_⟩
  · rw [h3, List.map_map]
    congr 3
    funext r
    exact countP_headEdges _ _ _ _ _ _
  · rw [h4, List.map_map, List.flatMap_map]
    have e1 : (fun b : Block ι => (b.cited.map Prod.fst).count n) ∘ B =
        fun r => ((K r).map (nodeName o.nodeType)).count n := by
      funext r; simp [B, citedOf, Function.comp_def]
    have e2 : (citingM env o own cites recs).flatMap (fun r => (B r).all) =
        ((citingM env o own cites recs).flatMap (fun r => (true, own r) :: (K r).map (fun c => (false, c)))).map
          (fun p => (p.1, nodeName o.nodeType p.2, info p.2)) := by
      rw [List.map_flatMap]
      congr 1
      funext r
      simp [B, Block.all, citedOf, Function.comp_def]
    rw [e1, e2, List.find?_map]
    simp only [Function.comp_def]
    rw [Option.map_map]
    rfl

/-- The records of the test below: record 0 lists A twice and B, record 1 is A and lists B. -/
private def cites4 (r : Nat) : Option (List Cite) := if r = 0 then some [cA, cB, cA] else if r = 1 then some [cB] else some []
private def oC (nt : NodeType) (w : Bool) : Opts := ⟨nt, false, false, .none, false, true, w⟩

example : DirectionOk (oC .full true) false ∧ (∀ r ∈ [0, 1, 2], HasAttr .full (own3 r) ∧ (own3 r).year ≠ none ∧ (own3 r).id ≠ []) ∧
    citing env0 (oC .full true) own3 cites4 [0, 1, 2] = [0, 1] := by
  refine ⟨Or.inl ⟨Or.inl rfl, Or.inl rfl⟩, ?_, by rw [citing_eq]; decide⟩
  intro r _
  refine ⟨trivial, ?_, ?_⟩
  · simp only [own3]; split <;> [skip; split] <;> simp [mk, cA]
  · simp only [own3]; split <;> [skip; split] <;> simp [mk, cA]

example : ∃ g, networkCitation env0 (oC .full true) true false (fun _ => ()) own3 cites4 [0, 1, 2] = .ok g ∧
    g.edge? (.str cA.id) (.str (own3 0).id) = some (some 2) ∧ g.edge? (.str (own3 0).id) (.str cA.id) = none ∧
    g.edge? (.str cB.id) (.str cA.id) = some (some 1) ∧ g.node? (.str cA.id) = some ⟨some 2, ()⟩ := by
  refine ⟨_, rfl, ?_⟩
  decide

/-- C17, the failure: without weights the direction option is ignored for full citations. -/
theorem C17_unweighted_direction_ignored (env : Env) (o : Opts) (directed : Bool) (info : Cite → ι) (own : ρ → Cite)
    (cites : ρ → Option (List Cite)) (recs : List ρ) (hw : o.weighted = false)
    (hnt : o.nodeType = .full ∨ o.nodeType = .original) :
    networkCitation env o directed false info own cites recs = networkCitation env o directed true info own cites recs := by
  have hwh : o.nodeType.whole = true := by rcases hnt with h | h <;> rw [h] <;> rfl
  unfold networkCitation addToNetwork linkHead
  simp only [hw, hwh, Bool.false_eq_true, if_false, if_true]

/-- C17, the failure: with weights and a node type other than the full citation, `recordToCite=False` still gives edges
that start at the citing record. -/
theorem C17_weighted_direction_wrong : ∃ (recs : List Nat) (own : Nat → Cite) (cites : Nat → Option (List Cite)) (g : CiteNet Unit),
    networkCitation env0 (oC .author true) true false (fun _ => ()) own cites recs = .ok g ∧
    g.edge? (.str "R0".toList) (.str "A".toList) = some (some 1) ∧ g.edge? (.str "A".toList) (.str "R0".toList) = none :=
  ⟨[0], own3, cites4, _, rfl, by decide⟩

/-- C17, the failure: without weights and with a node type other than the full citation the call raises as soon as a record
that takes part lists a kept citation. -/
theorem C17_unweighted_other_types_raise (env : Env) (o : Opts) (directed recordToCite : Bool) (info : Cite → ι)
    (own : ρ → Cite) (cites : ρ → Option (List Cite)) (recs : List ρ) (hw : o.weighted = false)
    (hnt : o.nodeType = .author ∨ o.nodeType = .journal ∨ o.nodeType = .year)
    (hown : ∀ r ∈ recs, HasAttr o.nodeType (own r))
    (hattr : ∀ r ∈ recs, ∀ c ∈ keptCites env o own cites recs r, HasAttr o.nodeType c)
    (hex : ∃ r ∈ citing env o own cites recs, keptCites env o own cites recs r ≠ []) :
    networkCitation env o directed recordToCite info own cites recs = .error .unboundLocal := by
  simp only [keptCites_eq, citing_eq] at hattr hex
  have hwh : o.nodeType.whole = false := by rcases hnt with h | h | h <;> rw [h] <;> rfl
  have htruthy : ∀ c, HasValue o.nodeType c → (nodeName o.nodeType c).truthy = true := by
    intro c hv
    rcases hnt with hnt | hnt | hnt <;> rw [hnt] at hv ⊢
    · obtain ⟨s, hs, hs2⟩ := hv
      simp only [nodeName, NodeId.truthy, hs, Option.getD_some]
      cases s with
      | nil => exact absurd rfl hs2
      | cons _ _ => rfl
    · obtain ⟨s, hs, hs2⟩ := hv
      simp only [nodeName, NodeId.truthy, hs, Option.getD_some]
      cases s with
      | nil => exact absurd rfl hs2
      | cons _ _ => rfl
    · obtain ⟨y, hy, hy2⟩ := hv
      simp only [nodeName, NodeId.truthy, hy, Option.getD_some]
      simpa using hy2
  have key : ∀ (core rs : List ρ), (∀ r ∈ rs, HasAttr o.nodeType (own r)) →
      (∀ r ∈ rs, ∀ c ∈ keptM env o own cites core r, HasAttr o.nodeType c) →
      (∃ r ∈ rs, own r ∈ keep env o own core [own r] ∧ keptM env o own cites core r ≠ []) →
      ∀ g : CiteNet ι, g.edges = [] → rs.foldlM (fun g r =>
        if (keep env o own core [own r]).length == 0 then .ok g
        else
          match cites r with
          | none => .ok g
          | some [] => .ok g
          | some cs => addToNetwork o.nodeType o.count o.weighted recordToCite info (some (own r)) (keep env o own core cs) g)
        g = (.error .unboundLocal : Except NetErr (CiteNet ι)) := by
    intro core rs
    induction rs with
    | nil => rintro _ _ ⟨r, hr, _⟩; simp at hr
    | cons r rs ih =>
      intro ho ha hex g hg
      have ih' := ih (fun r hr => ho r (by simp [hr])) (fun r hr => ha r (by simp [hr]))
      have hrest : ¬ (own r ∈ keep env o own core [own r] ∧ keptM env o own cites core r ≠ []) →
          ∃ r ∈ rs, own r ∈ keep env o own core [own r] ∧ keptM env o own cites core r ≠ [] := by
        intro hn
        obtain ⟨r', hr', h⟩ := hex
        rcases List.mem_cons.1 hr' with rfl | hr'
        · exact absurd h hn
        · exact ⟨r', hr', h⟩
      rw [List.foldlM_cons, keep_single]
      by_cases hk : own r ∈ keep env o own core [own r]
      · simp only [hk, decide_true, Bool.not_true, Bool.false_eq_true, if_false]
        rcases hc : cites r with _ | _ | ⟨c, cs⟩
        · exact ih' (hrest (fun h => h.2 (by simp [keptM, hc, filterCites]))) g hg
        · exact ih' (hrest (fun h => h.2 (by simp [keptM, hc, filterCites]))) g hg
        · have e : keep env o own core (c :: cs) = keptM env o own cites core r := by
            simp only [keptM, hc]; rfl
          have hv := kept_value hk (ho r (by simp))
          have hids : (keptM env o own cites core r).mapM (makeID o.nodeType) =
              .ok ((keptM env o own cites core r).map (nodeName o.nodeType)) := by
            apply mapM_ok
            intro c' hc'
            exact makeID_ok (ha r (by simp) c' hc') (kept_value (cs := (cites r).getD []) hc' (ha r (by simp) c' hc'))
          have hh : (addHead o.count g (nodeName o.nodeType (own r)) (info (own r))).edges = [] := by
            unfold addHead; split
            · exact hg
            · exact hg
          have hcited : ∀ (l : List (NodeId × ι)) (g : CiteNet ι), g.edges = [] →
              (l.foldl (fun g n => addCited o.count g n.1 n.2) g).edges = [] := by
            intro l
            induction l with
            | nil => intro g hg; exact hg
            | cons x l ihl =>
              intro g hg
              apply ihl
              show (addCited o.count g x.1 x.2).edges = []
              rw [addCited_eq (w := true)]
              exact hg
          have hno : ∀ u v, (((List.map (nodeName o.nodeType) (keptM env o own cites core r)).zip
              (List.map info (keptM env o own cites core r))).foldl (fun g n => addCited o.count g n.1 n.2)
              (addHead o.count g (nodeName o.nodeType (own r)) (info (own r)))).hasEdge u v = false := by
            intro u v
            simp only [hasEdge, edge?, hcited _ _ hh, getE, Option.isSome_none]
          have hstep : addToNetwork o.nodeType o.count o.weighted recordToCite info (some (own r))
              (keptM env o own cites core r) g = if keptM env o own cites core r = [] then
                .ok (addHead o.count g (nodeName o.nodeType (own r)) (info (own r))) else .error .unboundLocal := by
            simp only [addToNetwork, makeID_ok (ho r (by simp)) hv, hids, hwh, hw, htruthy _ hv, linkHead,
              Bool.false_eq_true, Bool.false_and, if_false, if_true, bind, Except.bind, pure, Except.pure]
            simp only [hno, Bool.not_false]
            by_cases hkk : keptM env o own cites core r = []
            · simp [hkk]
            · obtain ⟨x, xs, hxs⟩ := List.exists_cons_of_ne_nil hkk
              simp [hxs]
          simp only [e, hstep]
          by_cases hkk : keptM env o own cites core r = []
          · rw [if_pos hkk]
            exact ih' (hrest (fun h => h.2 hkk)) _ hh
          · rw [if_neg hkk]; rfl
      · simp only [hk, decide_false, Bool.not_false, if_true]
        exact ih' (hrest (fun h => hk h.1)) g hg
  unfold networkCitation
  apply key recs recs hown hattr _ _ rfl
  obtain ⟨r, hr, hk⟩ := hex
  unfold citingM at hr
  rw [List.mem_filter] at hr
  simp only [Bool.and_eq_true, decide_eq_true_eq] at hr
  exact ⟨r, hr.1, hr.2.1, hk⟩

example : networkCitation env0 (oC .author false) true true (fun _ => ()) own3 cites4 [0, 1] =
    (.error .unboundLocal : Except NetErr (CiteNet Unit)) ∧
    (∀ r ∈ [0, 1], (own3 r).author ≠ none ∧ ∀ c ∈ keptCites env0 (oC .author false) own3 cites4 [0, 1] r, c.author ≠ none) ∧
    0 ∈ citing env0 (oC .author false) own3 cites4 [0, 1] ∧
    keptCites env0 (oC .author false) own3 cites4 [0, 1] 0 ≠ [] := by
  rw [keptCites_eq, citing_eq]
  exact ⟨rfl, by decide, by decide, by decide⟩

/-- C17, the failure: a record without any identifying string joins the works it cites to each other instead of to itself. -/
theorem C17_empty_head_joins_citations : ∃ (recs : List Nat) (own : Nat → Cite) (cites : Nat → Option (List Cite))
    (g : CiteNet Unit), (own 0).id = [] ∧
    networkCitation env0 (oC .full true) true true (fun _ => ()) own cites recs = .ok g ∧
    g.edge? (.str []) (.str cA.id) = none ∧ g.edge? (.str cA.id) (.str cB.id) = some (some 1) :=
  ⟨[0], fun _ => mk "" none none none, fun _ => some [cA, cB], _, rfl, rfl, by decide⟩

end Verif.Props
