import Verif.Lemmas.WhoCites

/-! # C118: who cites whom in a Web of Science file -/
set_option autoImplicit false
set_option linter.unusedSimpArgs false
namespace Verif.Props.WhoCites
open Verif.Py Verif.Model.WosFields Verif.Model.RecordAccess Verif.Model.Pipeline Verif.Model.WhoCites Verif.Model.CiteParse Verif.Spec.Pipeline Verif.Spec.WhoCites Verif.Spec
  Verif.Lemmas.Pipeline Verif.Lemmas.WhoCites Verif.Props.CiteParse Verif.Props.Pipeline

/-- The setting: the functions of Python on texts are as far as needed what they are. -/
structure Texts (W : World) : Prop where
  upper : Verif.Props.CiteParse.UpperOk W.chars.up
  int : ∀ n : Nat, W.prims.int (showNat n) = some (n : Int)

/-- Each paper of the file has a reference. -/
def Referable (W : World) (papers : List Paper) (ref : Paper → Ref) : Prop := ∀ p ∈ papers, Describes (Str.strip W.prims.ws) (ref p) p ∧ (ref p).Ok

/-- What stands for a work. -/
abbrev lab (W : World) (r : Ref) : Str := r.label W.chars.upper W.chars.title

/-- How lines are read: each is a work, a reference is the work with its label. -/
structure Reads (W : World) (work : Str → Model.Citation.Cite) : Prop where
  parsed : ∀ line, ∃ q, parseWos W.chars line = some q ∧ q.cite = work line ∧ (work line).original = line
  label : ∀ r : Ref, r.Ok → (work r.line).id = lab W r

section
variable {W : World} {order : List Model.Wos.Rec → List Model.Wos.Rec} (before : Model.Wos.Rec → List (Op String FVal)) {origin : Str} {papers : List Paper}
  {ref : Paper → Ref}

theorem reads (hT : Texts W) : ∃ work, Reads W work := by
  refine ⟨fun c => (Classical.choose (C36_total W.chars c)).cite, fun c => ?_, fun r hr => ?_⟩
  · obtain ⟨h1, h2⟩ := Classical.choose_spec (C36_total W.chars c)
    exact ⟨_, h1, rfl, h2⟩
  · obtain ⟨h1, _⟩ := Classical.choose_spec (C36_total W.chars r.line)
    obtain ⟨p, g1, g2⟩ := read_line hT.upper r hr
    rw [h1] at g1
    exact (congrArg (fun x : Parsed => x.cite.id) (Option.some.inj g1)).trans g2

/-- What a record cites. -/
def cs (work : Str → Model.Citation.Cite) (p : Paper) : Option (List Model.Citation.Cite) :=
  if linesOf p "CR" = [] then none else some ((linesOf p "CR").map work)

theorem cs_getD (work : Str → Model.Citation.Cite) (p : Paper) : (cs work p).getD [] = (linesOf p "CR").map work := by
  unfold cs
  by_cases h : linesOf p "CR" = []
  · rw [if_pos h, h]; rfl
  · rw [if_neg h]; rfl

theorem cited_eq (h : Setting W order) (hf : FileOk W.ws origin papers) (hT : Texts W) (href : Referable W papers ref) {work : Str → Model.Citation.Cite} (hw : Reads W work) :
    cited W before (order (papers.map toRec)) = .ok ((order (papers.map toRec)).map (fun r => (work (ref r.fields).line, cs work r.fields))) := by
  have hall : ∀ l : List Str, l.mapM (fun c => (parseWos W.chars c).map Parsed.cite) = some (l.map work) := by
    intro l
    induction l with
    | nil => rfl
    | cons c l ih =>
      obtain ⟨q, h1, h2, _⟩ := hw.parsed c
      rw [List.mapM_cons, h1, ih, List.map_cons, ← h2]; rfl
  unfold cited
  apply Lemmas.Pipeline.mapM_ok
  intro r hr
  obtain ⟨h1, h2, h3⟩ := of_order h hf hr
  obtain ⟨d1, d2⟩ := href _ h3
  have hc := create_line before hT.int h1 _ d1 d2
  obtain ⟨q, q1, q2, _⟩ := hw.parsed (ref r.fields).line
  rw [q1, ← h2] at hc
  have := value_eq W before h1 "CR" "citations" "citations" (by unfold TagTable.Wos; decide +kernel) (.inr rfl)
  rw [← h2, (WosFields.C69_lines W.prims "AF".toList (by decide) _).2] at this
  rw [this, hc]
  unfold cs
  by_cases hl : linesOf r.fields "CR" = []
  · rw [if_pos hl, if_pos hl, ← q2]; rfl
  · rw [if_neg hl, if_neg hl, ← q2]
    show Except.ok (_, citations W (some (.cites _))) = _
    unfold citations
    dsimp only
    rw [hall]

open Classical in
theorem enters_iff (h : Setting W order) (work : Str → Model.Citation.Cite) (env : Model.CiteNetworks.Env) (o : Model.CiteNetworks.Opts) (hnt : o.nodeType = .full)
    (c : Model.Citation.Cite) :
    Enters env o Prod.fst ((order (papers.map toRec)).map (fun r => (work (ref r.fields).line, cs work r.fields))) c ↔
      Wanted env .full o.dropAnon o.dropNonJournals o.keyWords (if o.coreOnly then some (papers.map (fun p => work (ref p).line)) else none) c := by
  have hm : (∃ r ∈ (order (papers.map toRec)).map (fun r => (work (ref r.fields).line, cs work r.fields)), env.hash r.1.id = env.hash c.id) ↔
      ∃ d ∈ papers.map (fun p => work (ref p).line), env.hash d.id = env.hash c.id := by
    simp only [List.mem_map, exists_exists_and_eq_and, (h.perm _).mem_iff]
    rfl
  unfold Enters Wanted
  rw [hnt, hm]
  cases o.coreOnly
  · simp [HasAttr, HasValue]
  · simp [HasAttr, HasValue]

theorem headLinks_map {ν μ : Type} [DecidableEq ν] [DecidableEq μ] {f : ν → μ} (hf : ∀ x y, f x = f y → x = y) (d r : Bool) (a : ν) (l : List ν) (u v : ν) :
    headLinks d r (f a) (l.map f) (f u) (f v) = headLinks d r a l u v := by
  have hi : Function.Injective f := hf
  unfold headLinks
  simp only [List.count_map_of_injective _ _ hi, hi.eq_iff]

theorem headLinks_nil {ν : Type} [DecidableEq ν] (d r : Bool) (a u v : ν) : headLinks d r a [] u v = 0 := by
  unfold headLinks
  simp

theorem sum_filter {α : Type} (q : α → Bool) (f : α → Nat) (l : List α) : ((l.filter q).map f).sum = (l.map (fun a => if q a then f a else 0)).sum := by
  induction l with
  | nil => rfl
  | cons a l ih =>
    rw [List.filter_cons, List.map_cons, List.sum_cons, ← ih]
    cases q a <;> simp

open Classical in
/-- **C118, citations.** The citation network made from a file. Each line under `CR` is read as a work, and each paper stands in the network under the label of its
reference: first author, year and journal. Each paper that the options keep is joined to the works it lists that the options keep, as often as it lists them. -/
theorem C118_citation (h : Setting W order) (hf : FileOk W.ws origin papers) (hT : Texts W) (href : Referable W papers ref) (env : Model.CiteNetworks.Env)
    (o : Model.CiteNetworks.Opts) (hnt : o.nodeType = .full) (directed recordToCite : Bool) (hmode : o.weighted = true ∨ recordToCite = true) :
    ∃ work, Reads W work ∧ ∃ g, citationNet W before order env o directed recordToCite (fileText origin papers) = some (.ok (.ok g)) ∧ g.directed = directed ∧
      ∀ Keep : Model.Citation.Cite → Prop, (∀ c, Keep c ↔ Wanted env .full o.dropAnon o.dropNonJournals o.keyWords
          (if o.coreOnly then some (papers.map (fun p => work (ref p).line)) else none) c) →
      (∀ u v : Str, g.edge? (.str u) (.str v) = edgeFor o.weighted (papers.map (fun p => if Keep (work (ref p).line) then
        headLinks directed recordToCite (lab W (ref p)) ((((linesOf p "CR").map work).filter (fun c => decide (Keep c))).map (fun c => c.id)) u v else 0)).sum) ∧
      ∀ n, g.hasNode n = true ↔ ∃ p ∈ papers, linesOf p "CR" ≠ [] ∧ Keep (work (ref p).line) ∧
        (n = .str (lab W (ref p)) ∨ ∃ line ∈ linesOf p "CR", Keep (work line) ∧ n = .str (work line).id) := by
  obtain ⟨work, hw⟩ := reads hT
  refine ⟨work, hw, ?_⟩
  have hlab : ∀ p ∈ papers, (work (ref p).line).id = lab W (ref p) := fun p hp => hw.label _ (href p hp).2
  have hpl : ∀ {r}, r ∈ order (papers.map toRec) → r.fields ∈ papers := fun hr => (of_order h hf hr).2.2
  obtain ⟨g, g1, _, g3, g4, g5⟩ := Verif.Props.C17_citation_partial env o directed recordToCite (fun _ => ()) (Prod.fst : Model.Citation.Cite × Option (List Model.Citation.Cite) → _) Prod.snd
    ((order (papers.map toRec)).map (fun r => (work (ref r.fields).line, cs work r.fields))) (.inl ⟨.inl hnt, hmode⟩) (by
      intro r hr
      obtain ⟨r, hr, rfl⟩ := List.mem_map.1 hr
      refine ⟨by rw [hnt]; trivial, ?_⟩
      obtain ⟨q, q1, q2, _⟩ := hw.parsed (ref r.fields).line
      obtain ⟨p', _, _, _, hy, _⟩ := parse_fields W.chars (ref r.fields).line
      dsimp only
      rw [← q2]
      simp_all) (by
      intro _ x hx
      obtain ⟨r, hr, rfl⟩ := List.mem_map.1 hx
      dsimp only
      rw [hlab _ (hpl hr)]
      unfold lab Ref.label
      simp) (by intro r hr c hc; rw [hnt]; trivial)
  refine ⟨g, ?_, g3, fun Keep hK => ⟨fun u v => ?_, fun n => ?_⟩⟩
  · unfold citationNet
    rw [records_eq W order h.nl h.E hf]
    simp only [Option.map_some]
    rw [cited_eq before h hf hT href hw]
    exact congrArg (fun x => some (Except.ok x)) g1
  · rw [g4]
    congr 1
    unfold citing
    rw [sum_filter, List.map_map]
    refine Eq.trans ?_ (sum_order (papers := papers) h (fun r => if Keep (work (ref r.fields).line) then
        headLinks directed recordToCite (lab W (ref r.fields)) ((((linesOf r.fields "CR").map work).filter (fun c => decide (Keep c))).map (fun c => c.id)) u v else 0))
    congr 1
    apply List.map_congr_left
    intro r hr
    have hk : keptCites env o Prod.fst Prod.snd ((order (papers.map toRec)).map (fun r => (work (ref r.fields).line, cs work r.fields))) (work (ref r.fields).line, cs work r.fields)
        = ((linesOf r.fields "CR").map work).filter (fun c => decide (Keep c)) := by
      unfold keptCites
      dsimp only
      rw [cs_getD]
      apply List.filter_congr
      intro c _
      rw [enters_iff h work env o hnt, ← hK]
    simp only [Function.comp, hk, enters_iff h work env o hnt, ← hK, cs_getD, decide_eq_true_eq, hnt, nodeName]
    by_cases hp : Keep (work (ref r.fields).line)
    · by_cases he : linesOf r.fields "CR" = []
      · rw [if_neg (by simp [he]), if_pos hp, he]
        exact (headLinks_nil _ _ _ _ _).symm
      · rw [if_pos ⟨hp, by simpa using he⟩, if_pos hp, hlab _ (hpl hr), ← headLinks_map (f := Model.CiteNetworks.NodeId.str) (fun x y e => by injection e), List.map_map]
        rfl
    · rw [if_neg (fun e => hp e.1), if_neg hp]
  · unfold Graph.hasNode
    rw [g5, Option.isSome_map, List.find?_isSome]
    unfold citing keptCites
    simp only [List.mem_flatMap, List.mem_filter, List.mem_cons, List.mem_map, decide_eq_true_eq, enters_iff h work env o hnt, ← hK, hnt, nodeName]
    constructor
    · rintro ⟨⟨b, c⟩, ⟨⟨r1, r2⟩, ⟨⟨r, hr, e⟩, ⟨k1, k2⟩⟩, hc⟩, hn⟩
      cases e
      dsimp only at k1 k2 hn hc
      rw [cs_getD] at k2
      refine ⟨r.fields, hpl hr, by simpa using k2, k1, ?_⟩
      rcases hc with hc | ⟨d, ⟨hd1, hd2⟩, hc⟩
      · cases hc
        left
        rw [← hn, hlab _ (hpl hr)]
      · cases hc
        right
        rw [cs_getD] at hd1
        obtain ⟨line, hl, rfl⟩ := List.mem_map.1 hd1
        exact ⟨line, hl, hd2, hn.symm⟩
    · rintro ⟨p, hp, h1, h2, h3⟩
      have hrp : toRec p ∈ order (papers.map toRec) := (h.perm _).mem_iff.2 (List.mem_map_of_mem hp)
      rcases h3 with h3 | ⟨line, hl, hk, hn⟩
      · refine ⟨(true, work (ref p).line), ⟨(work (ref p).line, cs work p), ⟨⟨toRec p, hrp, rfl⟩, h2, ?_⟩, Or.inl rfl⟩, ?_⟩
        · dsimp only; rw [cs_getD]; simpa using h1
        · dsimp only; rw [hlab p hp, h3]
      · refine ⟨(false, work line), ⟨(work (ref p).line, cs work p), ⟨⟨toRec p, hrp, rfl⟩, h2, ?_⟩, Or.inr ⟨work line, ⟨?_, hk⟩, rfl⟩⟩, hn.symm⟩
        · dsimp only; rw [cs_getD]; simpa using h1
        · dsimp only; rw [cs_getD]; exact List.mem_map_of_mem hl

/-- What a line stands for in a network: references by their labels. -/
structure Names (W : World) (name : Str → Str) : Prop where
  parsed : ∀ line, ∃ q, parseWos W.chars line = some q ∧ q.cite.id = name line
  label : ∀ r : Ref, r.Ok → name r.line = lab W r

theorem names_of {work : Str → Model.Citation.Cite} (hw : Reads W work) : Names W (fun line => (work line).id) where
  parsed line := by
    obtain ⟨q, h1, h2, _⟩ := hw.parsed line
    exact ⟨q, h1, by rw [h2]⟩
  label := hw.label

/-- **C118, without options.** From the label of each paper there is an edge to what each line under `CR` stands for, with the number of those lines; there is no other
edge, and no node but the papers that cite something and what they cite. -/
theorem C118_links (h : Setting W order) (hf : FileOk W.ws origin papers) (hT : Texts W) (href : Referable W papers ref) (env : Model.CiteNetworks.Env) (count weighted : Bool) :
    ∃ name, Names W name ∧ ∃ g, citationNet W before order env ⟨.full, false, false, .none, false, count, weighted⟩ true true (fileText origin papers) = some (.ok (.ok g)) ∧
      g.directed = true ∧
      (∀ u v : Str, g.edge? (.str u) (.str v) = edgeFor weighted (papers.map (fun p => if lab W (ref p) = u then (linesOf p "CR").countP (fun line => decide (name line = v)) else 0)).sum) ∧
      ∀ n, g.hasNode n = true ↔ ∃ p ∈ papers, linesOf p "CR" ≠ [] ∧ (n = .str (lab W (ref p)) ∨ ∃ line ∈ linesOf p "CR", n = .str (name line)) := by
  obtain ⟨work, hw, g, g1, g2, g3⟩ := C118_citation before h hf hT href env ⟨.full, false, false, .none, false, count, weighted⟩ rfl true true (.inr rfl)
  obtain ⟨g4, g5⟩ := g3 (fun _ => True) (by
    intro c
    unfold Wanted
    simp [HasValue, KeyWords.toList])
  refine ⟨_, names_of hw, g, g1, g2, fun u v => ?_, fun n => ?_⟩
  · rw [g4]
    refine congrArg _ (congrArg _ (List.map_congr_left fun p _ => ?_))
    have he : ((linesOf p "CR").map work).filter (fun _ => @decide True (Classical.propDecidable True)) = (linesOf p "CR").map work :=
      List.filter_eq_self.2 (fun _ _ => @decide_eq_true _ (Classical.propDecidable True) trivial)
    rw [if_pos trivial, he, List.map_map]
    unfold headLinks
    rw [if_pos rfl, if_pos rfl]
    unfold List.count
    rw [List.countP_map]
    refine if_congr Iff.rfl (List.countP_congr fun line _ => ?_) rfl
    simp
  · rw [g5]
    simp only [true_and]

/-- **C118, a cited paper is found.** When a paper of the file lists a reference that has the label of a paper of the file, the network has an edge from the one to the other:
the volume, the page and the DOI, and full stops and the case of letters, need not agree. -/
theorem C118_found (h : Setting W order) (hf : FileOk W.ws origin papers) (hT : Texts W) (href : Referable W papers ref) (env : Model.CiteNetworks.Env) (count weighted : Bool)
    {p q : Paper} (hq : q ∈ papers) (r : Ref) (hr : r.Ok) (hline : r.line ∈ linesOf q "CR") (hsame : lab W r = lab W (ref p)) :
    ∃ g, citationNet W before order env ⟨.full, false, false, .none, false, count, weighted⟩ true true (fileText origin papers) = some (.ok (.ok g)) ∧
      g.hasEdge (.str (lab W (ref q))) (.str (lab W (ref p))) = true := by
  obtain ⟨name, hn, g, g1, _, g3, _⟩ := C118_links before h hf hT href env count weighted
  refine ⟨g, g1, ?_⟩
  unfold Graph.hasEdge
  rw [g3]
  unfold edgeFor
  rw [if_neg, Option.isSome_some]
  intro h0
  have := List.sum_eq_zero_iff_forall_eq_nat.1 h0 _ (List.mem_map_of_mem hq)
  rw [if_pos rfl] at this
  rw [List.countP_eq_zero] at this
  exact this _ hline (decide_eq_true ((hn.label r hr).trans hsame))

/-- A paper with the label `u` cites what is called `n`. -/
def CitesName (W : World) (papers : List Paper) (ref : Paper → Ref) (name : Str → Str) (u n : Str) : Prop :=
  ∃ p ∈ papers, lab W (ref p) = u ∧ ∃ line ∈ linesOf p "CR", name line = n

/-- **C118, coupling.** In the network of bibliographic coupling made from a file, two papers are joined with the number of different works that both cite, however often and
in whatever order they list them. The papers in it are those that cite something or are cited. -/
theorem C118_coupling (h : Setting W order) (hf : FileOk W.ws origin papers) (hT : Texts W) (href : Referable W papers ref) (env : Model.CiteNetworks.Env) (weighted : Bool)
    (shuffle : List Model.CiteNetworks.NodeId → List Model.CiteNetworks.NodeId) (hsh : ∀ l, (shuffle l).Perm l) :
    ∃ name, Names W name ∧ ∃ g, coupling W before order env weighted shuffle (fileText origin papers) = some (.ok (.ok g)) ∧ g.directed = false ∧
      (∀ u v : Str, u ≠ v → ∀ common : List Str, common.Nodup → (∀ n, n ∈ common ↔ CitesName W papers ref name u n ∧ CitesName W papers ref name v n) →
        g.edge? (.str u) (.str v) = edgeFor weighted common.length) ∧
      (∀ u, g.edge? u u = none) ∧
      (∀ s, g.hasNode (.str s) = true ↔ (∃ p ∈ papers, env.hash (lab W (ref p)) = env.hash s) ∧
        ∃ p ∈ papers, linesOf p "CR" ≠ [] ∧ (lab W (ref p) = s ∨ ∃ line ∈ linesOf p "CR", name line = s)) ∧
      ∀ n, g.hasNode (.num n) = false := by
  obtain ⟨work, hw⟩ := reads hT
  refine ⟨_, names_of hw, ?_⟩
  have hlab : ∀ p ∈ papers, (work (ref p).line).id = lab W (ref p) := fun p hp => hw.label _ (href p hp).2
  have hpl : ∀ {r}, r ∈ order (papers.map toRec) → r.fields ∈ papers := fun hr => (of_order h hf hr).2.2
  have hin : ∀ p ∈ papers, toRec p ∈ order (papers.map toRec) := fun p hp => (h.perm _).mem_iff.2 (List.mem_map_of_mem hp)
  generalize hv : (order (papers.map toRec)).map (fun r => (work (ref r.fields).line, cs work r.fields)) = vals
  have hmem : ∀ x, x ∈ vals ↔ ∃ p ∈ papers, x = (work (ref p).line, cs work p) := by
    intro x
    rw [← hv, List.mem_map]
    constructor
    · rintro ⟨r, hr, rfl⟩
      exact ⟨r.fields, hpl hr, rfl⟩
    · rintro ⟨p, hp, rfl⟩
      exact ⟨toRec p, hin p hp, rfl⟩
  obtain ⟨g, g1, _, g3, g4, g5, g6, _, g8⟩ := Verif.Props.C18_coupling env weighted
    (fun c => vals.any (fun v => decide (env.hash v.1.id = env.hash c.id))) id Prod.fst Prod.snd vals shuffle hsh (fun _ => rfl) (by
      intro x hx
      obtain ⟨p, hp, rfl⟩ := (hmem x).1 hx
      refine ⟨?_, ?_⟩
      · dsimp only
        rw [hlab p hp]
        unfold lab Ref.label
        simp
      · obtain ⟨q, q1, q2, _⟩ := hw.parsed (ref p).line
        obtain ⟨p', _, _, _, hy, _⟩ := parse_fields W.chars (ref p).line
        dsimp only
        rw [← q2]
        simp_all)
  have hcites : ∀ u n : Str, Verif.Props.citesWork Prod.fst Prod.snd vals (.str u) (.str n) = true ↔ CitesName W papers ref (fun line => (work line).id) u n := by
    intro u n
    unfold Verif.Props.citesWork CitesName
    rw [List.any_eq_true]
    simp only [Bool.and_eq_true, decide_eq_true_eq, Model.CiteNetworks.NodeId.str.injEq, List.mem_map]
    constructor
    · rintro ⟨x, hx, e1, c, hc, e2⟩
      obtain ⟨p, hp, rfl⟩ := (hmem x).1 hx
      dsimp only at e1 hc
      rw [cs_getD] at hc
      obtain ⟨line, hl, rfl⟩ := List.mem_map.1 hc
      exact ⟨p, hp, by rw [← hlab p hp, e1], line, hl, e2⟩
    · rintro ⟨p, hp, e1, line, hl, e2⟩
      refine ⟨_, (hmem _).2 ⟨p, hp, rfl⟩, by rw [← e1, ← hlab p hp], work line, ?_, e2⟩
      dsimp only
      rw [cs_getD]
      exact List.mem_map_of_mem hl
  refine ⟨g, ?_, g3, fun u v huv common hnd hc => ?_, g5, fun s => ?_, g8⟩
  · unfold coupling
    rw [records_eq W order h.nl h.E hf]
    simp only [Option.map_some]
    rw [cited_eq before h hf hT href hw, hv]
    exact congrArg (fun x => some (Except.ok x)) g1
  · rw [g4 _ _ (fun e => huv (by injection e)), List.countP_eq_length_filter]
    congr 1
    rw [← List.length_map (as := common) (f := Model.CiteNetworks.NodeId.str)]
    apply List.Perm.length_eq
    apply (List.perm_ext_iff_of_nodup (List.Nodup.filter _ (List.nodup_dedup _)) (hnd.map (fun x y e => by injection e))).2
    intro a
    rw [List.mem_filter, List.mem_map, Bool.and_eq_true]
    constructor
    · rintro ⟨h1, h2, h3⟩
      rw [List.mem_dedup, List.mem_flatMap] at h1
      obtain ⟨x, _, hx⟩ := h1
      obtain ⟨c, _, rfl⟩ := List.mem_map.1 hx
      exact ⟨_, (hc _).2 ⟨(hcites _ _).1 h2, (hcites _ _).1 h3⟩, rfl⟩
    · rintro ⟨n, hn, rfl⟩
      obtain ⟨h2, h3⟩ := (hc n).1 hn
      refine ⟨?_, (hcites _ _).2 h2, (hcites _ _).2 h3⟩
      obtain ⟨p, hp, _, line, hl, e⟩ := h2
      rw [List.mem_dedup, List.mem_flatMap]
      refine ⟨_, (hmem _).2 ⟨p, hp, rfl⟩, ?_⟩
      dsimp only
      rw [cs_getD, List.map_map]
      exact List.mem_map.2 ⟨line, hl, by rw [← e]; rfl⟩
  · rw [g6]
    apply and_congr
    · constructor
      · rintro ⟨x, hx, e⟩
        obtain ⟨p, hp, rfl⟩ := (hmem x).1 hx
        exact ⟨p, hp, by rw [← hlab p hp]; exact e⟩
      · rintro ⟨p, hp, e⟩
        exact ⟨_, (hmem _).2 ⟨p, hp, rfl⟩, by dsimp only; rw [hlab p hp]; exact e⟩
    · constructor
      · rintro ⟨x, hx, h1, h2⟩
        obtain ⟨p, hp, rfl⟩ := (hmem x).1 hx
        dsimp only at h1 h2
        rw [cs_getD] at h1 h2
        refine ⟨p, hp, by simpa using h1, ?_⟩
        rw [hlab p hp, List.map_map, List.mem_map] at h2
        exact h2
      · rintro ⟨p, hp, h1, h2⟩
        refine ⟨_, (hmem _).2 ⟨p, hp, rfl⟩, ?_⟩
        dsimp only
        rw [cs_getD, hlab p hp, List.map_map, List.mem_map]
        exact ⟨by simpa using h1, h2⟩

open Classical in
/-- **C118, co-citation of the papers of the file.** With `coreOnly` the co-citation network made from a file has only works with the hash of the label of a paper of the file:
two of them are joined with the number of times they are listed together. -/
theorem C118_core (h : Setting W order) (hf : FileOk W.ws origin papers) (hT : Texts W) (href : Referable W papers ref) (env : Model.CiteNetworks.Env)
    (o : Model.CiteNetworks.Opts) (hnt : o.nodeType = .full) :
    ∃ work, Reads W work ∧ ∃ g, coCited W before order env o (fileText origin papers) = some (.ok (.ok g)) ∧ g.directed = false ∧
      ∀ Keep : Model.Citation.Cite → Prop, (∀ c, Keep c ↔ Wanted env .full o.dropAnon o.dropNonJournals o.keyWords
          (if o.coreOnly then some (papers.map (fun p => work (ref p).line)) else none) c) →
      (∀ u v : Str, g.edge? (.str u) (.str v) = edgeFor o.weighted (papers.map (fun p =>
        pairsShared ((((linesOf p "CR").map work).filter (fun c => decide (Keep c))).map (fun c => c.id)) u v)).sum) ∧
      ∀ n, g.hasNode n = true ↔ ∃ p ∈ papers, ∃ line ∈ linesOf p "CR", Keep (work line) ∧ n = .str (work line).id := by
  obtain ⟨work, hw⟩ := reads hT
  refine ⟨work, hw, ?_⟩
  have hpl : ∀ {r}, r ∈ order (papers.map toRec) → r.fields ∈ papers := fun hr => (of_order h hf hr).2.2
  obtain ⟨g, g1, _, g3, g4, g5⟩ := Verif.Props.C16_cocitation env o (fun _ => ()) (Prod.fst : Model.Citation.Cite × Option (List Model.Citation.Cite) → _) Prod.snd
    ((order (papers.map toRec)).map (fun r => (work (ref r.fields).line, cs work r.fields))) (by intro r hr c hc; rw [hnt]; trivial)
  refine ⟨g, ?_, g3, fun Keep hK => ?_⟩
  · unfold coCited
    rw [records_eq W order h.nl h.E hf]
    simp only [Option.map_some]
    rw [cited_eq before h hf hT href hw]
    exact congrArg (fun x => some (Except.ok x)) g1
  have hk : ∀ r : Model.Wos.Rec, keptCites env o Prod.fst Prod.snd ((order (papers.map toRec)).map (fun r => (work (ref r.fields).line, cs work r.fields)))
      (work (ref r.fields).line, cs work r.fields) = ((linesOf r.fields "CR").map work).filter (fun c => decide (Keep c)) := by
    intro r
    unfold keptCites
    dsimp only
    rw [cs_getD]
    apply List.filter_congr
    intro c _
    rw [enters_iff h work env o hnt, ← hK]
  refine ⟨fun u v => ?_, fun n => ?_⟩
  · rw [g4, List.map_map]
    congr 1
    refine Eq.trans ?_ (sum_order (papers := papers) h (fun r =>
      pairsShared ((((linesOf r.fields "CR").map work).filter (fun c => decide (Keep c))).map (fun c => c.id)) u v))
    congr 1
    apply List.map_congr_left
    intro r hr
    simp only [Function.comp, hk, hnt]
    rw [← pairs_map (f := Model.CiteNetworks.NodeId.str) (fun x y e => by injection e), List.map_map]
    rfl
  · unfold Graph.hasNode
    rw [g5, Option.isSome_map, List.find?_isSome, List.flatMap_map]
    simp only [List.mem_flatMap, hk, List.mem_filter, List.mem_map, decide_eq_true_eq, hnt, nodeName]
    constructor
    · rintro ⟨c, ⟨r, hr, ⟨line, hl, rfl⟩, hkc⟩, hn⟩
      exact ⟨r.fields, hpl hr, line, hl, hkc, hn.symm⟩
    · rintro ⟨p, hp, line, hl, hkc, hn⟩
      exact ⟨work line, ⟨toRec p, (h.perm _).mem_iff.2 (List.mem_map_of_mem hp), ⟨line, hl, rfl⟩, hkc⟩, hn.symm⟩

end

/-! ## A file: the second paper and the third cite the first, the second also with another writing of its author and without its page -/

def file : List Paper :=
  [[("PT".toList, ["J".toList]), ("AU".toList, ["Nunez, R.".toList]), ("PY".toList, ["1998".toList]), ("J9".toList, ["MATH COGNITION".toList]), ("VL".toList, ["4".toList]),
    ("BP".toList, ["85".toList]), ("UT".toList, ["WOS:1".toList])],
   [("PT".toList, ["J".toList]), ("AU".toList, ["Dee, A".toList, "Eve, B".toList]), ("CR".toList, ["Nunez R, 1998, Math Cognition, V4".toList, "Cy X, 1990, Y".toList]),
    ("PY".toList, ["2001".toList]), ("J9".toList, ["PHYS A".toList]), ("DI".toList, ["10.1/2".toList]), ("UT".toList, ["WOS:2".toList])],
   [("PT".toList, ["B".toList]), ("AU".toList, ["Fay, C".toList]), ("TI".toList, ["A book".toList]), ("CR".toList, ["Nunez R, 1998, MATH COGNITION, V4, P85".toList]),
    ("PY".toList, ["2003".toList]), ("UT".toList, ["WOS:3".toList])]]

def nunez : Ref := ⟨"Nunez R.".toList, 1998, "MATH COGNITION".toList, some "4".toList, some "85".toList, none⟩
def dee : Ref := ⟨"Dee A".toList, 2001, "PHYS A".toList, none, none, some "10.1/2".toList⟩
def fay : Ref := ⟨"Fay C".toList, 2003, "A book".toList, none, none, none⟩
/-- As the second paper lists the first one. -/
def listed : Ref := ⟨"Nunez R".toList, 1998, "Math Cognition".toList, some "4".toList, none, none⟩

def refOf (p : Paper) : Ref := if firstOf p "PY" = some "1998".toList then nunez else if firstOf p "PY" = some "2001".toList then dee else fay

theorem file_ok : FileOk w.ws "FN Clarivate".toList file where
  each := by
    intro p hp
    simp only [file, List.mem_cons, List.not_mem_nil, or_false] at hp
    rcases hp with rfl | rfl | rfl <;>
    exact {
      fields := ⟨by
        intro f hf
        have : ∀ f ∈ file.flatten, f.1.length = 2 ∧ f.1 ≠ "ER".toList ∧ f.1 ≠ "  ".toList ∧ f.2 ≠ [] ∧ '\n' ∉ f.1 ∧ ∀ v ∈ f.2, '\n' ∉ v := by decide +kernel
        obtain ⟨a, b, c, d, e, g⟩ := this f (List.mem_flatten.2 ⟨_, by simp [file], hf⟩)
        exact ⟨a, b, c, d, e, g⟩, by decide +kernel⟩
      noCR := by decide +kernel
      ut := by decide +kernel
      noJ9 := by decide +kernel
      first := by
        intro f hf
        obtain rfl := Option.some.inj hf
        exact ⟨by decide, 'P', by decide, by decide⟩ }
  different := by decide +kernel
  origin := by decide +kernel

theorem texts : Texts w where
  upper := ascii_ok
  int n := by
    obtain ⟨h1, h2, h3⟩ := showAux_spec (n + 1) n (by omega)
    show (if (!(showNat n).isEmpty && (showNat n).all isDig) = true then some ((readNat (showNat n) : Nat) : Int) else none) = _
    rw [if_pos, readNat_showNat]
    have h4 : (showNat n).all isDig = true := List.all_eq_true.2 h2
    have h5 : (showNat n).isEmpty = false := by
      have : showNat n ≠ [] := h3
      simpa using this
    rw [h4, h5]; rfl

theorem nunez_ok : nunez.Ok := ⟨⟨'N', 'u', _, rfl, by decide⟩, by decide, by decide, by decide, by decide, by decide, by decide⟩
theorem listed_ok : listed.Ok := ⟨⟨'N', 'u', _, rfl, by decide⟩, by decide, by decide, by decide, by decide, by decide, by decide⟩

theorem referable : Referable w file refOf := by
  intro p hp
  simp only [file, List.mem_cons, List.not_mem_nil, or_false] at hp
  rcases hp with rfl | rfl | rfl
  · exact ⟨⟨by decide +kernel, by decide +kernel, .inl (by decide +kernel), by decide +kernel, by decide +kernel, by decide +kernel⟩, nunez_ok⟩
  · exact ⟨⟨by decide +kernel, by decide +kernel, .inl (by decide +kernel), by decide +kernel, by decide +kernel, by decide +kernel⟩,
      ⟨⟨'D', 'e', _, rfl, by decide⟩, by decide +kernel, by decide +kernel, by decide +kernel, by decide +kernel, by decide +kernel, by decide +kernel⟩⟩
  · exact ⟨⟨by decide +kernel, by decide +kernel, .inr (by decide +kernel), by decide +kernel, by decide +kernel, by decide +kernel⟩,
      ⟨⟨'F', 'a', _, rfl, by decide⟩, by decide +kernel, by decide +kernel, by decide +kernel, by decide +kernel, by decide +kernel, by decide +kernel⟩⟩

example : ∃ g, citationNet w (fun _ => [.item "year"]) List.reverse ⟨id, fun _ => true, fun _ => 0⟩ ⟨.full, false, false, .none, false, true, true⟩ true true
    (fileText "FN Clarivate".toList file) = some (.ok (.ok g)) ∧ g.hasEdge (.str "Dee A, 2001, PHYS A".toList) (.str "Nunez R, 1998, MATH COGNITION".toList) = true := by
  have hm : file[1] ∈ file := List.getElem_mem _
  obtain ⟨g, h1, h2⟩ := C118_found (fun _ => [.item "year"]) setting file_ok texts referable ⟨id, fun _ => true, fun _ => 0⟩ true true (p := file[0]) hm listed listed_ok
    (by decide +kernel) (by decide +kernel)
  refine ⟨g, h1, ?_⟩
  have e1 : lab w (refOf file[1]) = "Dee A, 2001, PHYS A".toList := by decide +kernel
  have e2 : lab w (refOf file[0]) = "Nunez R, 1998, MATH COGNITION".toList := by decide +kernel
  rwa [e1, e2] at h2

def cy : Ref := ⟨"Cy X".toList, 1990, "Y".toList, none, none, none⟩
def again : Ref := ⟨"Nunez R".toList, 1998, "MATH COGNITION".toList, some "4".toList, some "85".toList, none⟩

/-- The second and the third paper have one work in common, written in two ways. -/
example : ∃ g, coupling w (fun _ => []) List.reverse ⟨id, fun _ => true, fun _ => 0⟩ true List.reverse (fileText "FN Clarivate".toList file) = some (.ok (.ok g)) ∧
    g.edge? (.str "Dee A, 2001, PHYS A".toList) (.str "Fay C, 2003, A BOOK".toList) = some (some 1) := by
  obtain ⟨name, hn, g, h1, _, h3, _⟩ := C118_coupling (fun _ => []) setting file_ok texts referable ⟨id, fun _ => true, fun _ => 0⟩ true List.reverse List.reverse_perm
  refine ⟨g, h1, ?_⟩
  have e1 : name "Nunez R, 1998, Math Cognition, V4".toList = "Nunez R, 1998, MATH COGNITION".toList :=
    (congrArg name (by decide +kernel)).trans ((hn.label listed listed_ok).trans (by decide +kernel))
  have e2 : name "Cy X, 1990, Y".toList = "Cy X, 1990, Y".toList :=
    (congrArg name (by decide +kernel)).trans ((hn.label cy ⟨⟨'C', 'y', _, rfl, by decide⟩, by decide, by decide, by decide, by decide, by decide, by decide⟩).trans (by decide +kernel))
  have e3 : name "Nunez R, 1998, MATH COGNITION, V4, P85".toList = "Nunez R, 1998, MATH COGNITION".toList :=
    (congrArg name (by decide +kernel)).trans ((hn.label again ⟨⟨'N', 'u', _, rfl, by decide⟩, by decide, by decide, by decide, by decide, by decide, by decide⟩).trans (by decide +kernel))
  have c2 : ∀ n, CitesName w file refOf name "Dee A, 2001, PHYS A".toList n ↔ n = "Nunez R, 1998, MATH COGNITION".toList ∨ n = "Cy X, 1990, Y".toList := by
    intro n
    constructor
    · rintro ⟨p, hp, hl, line, hm, rfl⟩
      simp only [file, List.mem_cons, List.not_mem_nil, or_false] at hp
      rcases hp with rfl | rfl | rfl
      · exact absurd hl (by decide +kernel)
      · have : line = "Nunez R, 1998, Math Cognition, V4".toList ∨ line = "Cy X, 1990, Y".toList := by
          have he : linesOf file[1] "CR" = ["Nunez R, 1998, Math Cognition, V4".toList, "Cy X, 1990, Y".toList] := by decide +kernel
          have hm' : line ∈ linesOf file[1] "CR" := hm
          rw [he] at hm'
          simpa using hm'
        rcases this with rfl | rfl
        · exact .inl e1
        · exact .inr e2
      · exact absurd hl (by decide +kernel)
    · rintro (rfl | rfl)
      · exact ⟨file[1], List.getElem_mem _, by decide +kernel, _, by decide +kernel, e1⟩
      · exact ⟨file[1], List.getElem_mem _, by decide +kernel, _, by decide +kernel, e2⟩
  have c3 : ∀ n, CitesName w file refOf name "Fay C, 2003, A BOOK".toList n ↔ n = "Nunez R, 1998, MATH COGNITION".toList := by
    intro n
    constructor
    · rintro ⟨p, hp, hl, line, hm, rfl⟩
      simp only [file, List.mem_cons, List.not_mem_nil, or_false] at hp
      rcases hp with rfl | rfl | rfl
      · exact absurd hl (by decide +kernel)
      · exact absurd hl (by decide +kernel)
      · have he : linesOf file[2] "CR" = ["Nunez R, 1998, MATH COGNITION, V4, P85".toList] := by decide +kernel
        have hm' : line ∈ linesOf file[2] "CR" := hm
        rw [he] at hm'
        rw [List.mem_singleton.1 hm']
        exact e3
    · rintro rfl
      exact ⟨file[2], List.getElem_mem _, by decide +kernel, _, by decide +kernel, e3⟩
  refine (h3 _ _ (by decide) ["Nunez R, 1998, MATH COGNITION".toList] (by simp) fun n => ?_).trans rfl
  rw [c2, c3, List.mem_singleton]
  exact ⟨fun e => ⟨.inl e, e⟩, fun e => e.2⟩

end Verif.Props.WhoCites
