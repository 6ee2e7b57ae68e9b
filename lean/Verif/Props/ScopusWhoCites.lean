import Verif.Lemmas.FileCites
import Verif.Model.ScopusWhoCites
import Verif.Spec.ScopusWhoCites
import Verif.Props.ScopusCite
import Verif.Props.ScopusPipeline

/-! # C119: who cites whom in a Scopus file -/
set_option autoImplicit false
set_option linter.unusedSimpArgs false
namespace Verif.Props.ScopusWhoCites
open Verif.Py Verif.Model.OtherFields Verif.Model.RecordAccess Verif.Model.ScopusPipeline Verif.Model.ScopusWhoCites Verif.Spec.ScopusPipeline Verif.Spec.ScopusWhoCites Verif.Spec
  Verif.Spec.Scopus Verif.Lemmas.ScopusPipeline Verif.Props.ScopusCite
open Verif.Model.CiteParse (Chars parseScopus)
open Verif.Props.ScopusPipeline (paper_of of_order)

/-- A reference that can be told into its parts again: the author a family name, a space and initials with a full stop, a year of two to five digits, no comma in the journal,
no parentheses in the title, letters, digits and dashes in volume and page. -/
structure RefOk (C : Chars) (r : Ref) : Prop where
  name : ScopusName C (C.upper r.author)
  noComma : ',' ∉ r.author ∧ ',' ∉ r.journal
  year : 10 ≤ r.year ∧ r.year < 100000
  journal : r.journal ≠ []
  title : ∀ t, r.title = some t → t ≠ [] ∧ '(' ∉ t ∧ ')' ∉ t
  volume : ∀ s, r.volume = some s → s ≠ [] ∧ Plain C (C.upper s)
  page : ∀ s, r.page = some s → s ≠ [] ∧ Plain C (C.upper s)

/-- What stands for a work. -/
abbrev lab (W : World) (r : Ref) : Str := r.label W.chars.upper

/-- What a line is read as. -/
@[irreducible] def work (W : World) (line : Str) : Model.Citation.Cite := (parseScopus W.chars line).cite

theorem work_eq (W : World) (line : Str) : work W line = (parseScopus W.chars line).cite := by unfold work; rfl

/-- The functions of Python on texts are as far as needed what they are. -/
structure Texts (W : World) : Prop where
  chars : CharsOk W.chars
  letter : W.chars.word 'P' = true
  int : ∀ n : Nat, W.prims.int (showNat n) = some (n : Int)

/-- Each paper of the file has a reference. -/
def Referable (W : World) (papers : List Paper) (ref : Paper → Ref) : Prop := ∀ p ∈ papers, Describes (ref p) p ∧ RefOk W.chars (ref p)

open Verif.Props.CiteParse (present)

theorem string_eq (C : Chars) (v : Model.ScopusCite.SVals) (r : Ref) (hr : RefOk C r) {a : Str} {others : List Str} (ha : v.authors = a :: others)
    (hra : r.author = noCommas a) (ht : r.title = (present v.title).map noParens) (hy : v.year = some (r.year : Int)) (hj : v.journal = some r.journal)
    (hv : r.volume = present v.volume) (hp : r.page = present v.page) : Model.ScopusCite.citeString v = r.line := by
  unfold Model.ScopusCite.citeString
  rw [ha]
  dsimp only
  rw [plainAuthor_eq, valsStr_eq v r.year hy (by have := hr.year.1; omega) r.journal hj hr.journal, ← hra, ← hv, ← hp]
  unfold Ref.line tailStr
  rw [ht]
  cases present v.title <;> cases r.volume <;> cases r.page <;> simp [part]

theorem cite_eq {C : Chars} (hC : CharsOk C) (hP : C.word 'P' = true) (v : Model.ScopusCite.SVals) (r : Ref) (hr : RefOk C r) {a : Str} {others : List Str}
    (ha : v.authors = a :: others) (hra : r.author = noCommas a) (ht : r.title = (present v.title).map noParens) (hy : v.year = some (r.year : Int))
    (hj : v.journal = some r.journal) (hv : r.volume = present v.volume) (hp : r.page = present v.page) :
    (Model.ScopusCite.createCitation C v).parsed = parseScopus C r.line ∧ (parseScopus C r.line).cite.id = r.label C.upper ∧
      (parseScopus C r.line).cite.year = some (some (r.year : Int)) := by
  obtain ⟨h1, _, h3, _, h5, _⟩ := cite_fields hC hP v a others ha (by rw [← hra]; exact hr.name) r.year hy hr.year.1 hr.year.2 r.journal hj hr.journal hr.noComma.2 (by
      intro t e he
      have hpt : present v.title = some t := by rw [e]; simp [present, he]
      rw [hpt] at ht
      obtain ⟨hne, _⟩ := hr.title _ ht
      obtain ⟨c, hc⟩ := List.exists_mem_of_ne_nil _ hne
      obtain ⟨hc1, hc2⟩ := List.mem_filter.1 hc
      exact ⟨c, hc1, by simpa using hc2⟩)
    (fun x hx => (hr.volume x (hv.trans hx)).2) (fun x hx => (hr.page x (hp.trans hx)).2)
  have he : (Model.ScopusCite.createCitation C v).parsed = parseScopus C r.line := by
    rw [(C77_bad v).2 h1, string_eq C v r hr ha hra ht hy hj hv hp]
  refine ⟨he, ?_, ?_⟩
  · rw [← he, h5, ← hra]; rfl
  · rw [← he, h3]

theorem present_self (o : Option Str) (h : ∀ s, o = some s → s ≠ []) : present o = o := by
  cases o with
  | none => rfl
  | some s => simp [present, h s rfl]

theorem noParens_self (t : Str) (h1 : '(' ∉ t) (h2 : ')' ∉ t) : noParens t = t := by
  unfold noParens
  apply List.filter_eq_self.2
  intro c hc
  simp only [Bool.and_eq_true, decide_eq_true_eq]
  exact ⟨fun e => h1 (e ▸ hc), fun e => h2 (e ▸ hc)⟩

theorem noCommas_self (t : Str) (h : ',' ∉ t) : noCommas t = t := by
  unfold noCommas
  apply List.filter_eq_self.2
  intro c hc
  simp only [decide_eq_true_eq]
  exact fun e => h (e ▸ hc)

/-- A reference is read as the work with its label. -/
theorem read_line {C : Chars} (hC : CharsOk C) (hP : C.word 'P' = true) (r : Ref) (hr : RefOk C r) :
    (parseScopus C r.line).cite.id = r.label C.upper ∧ (parseScopus C r.line).cite.year = some (some (r.year : Int)) := by
  refine (cite_eq hC hP ⟨[r.author], r.title, some r.year, some r.journal, r.volume, r.page⟩ r hr rfl (noCommas_self _ hr.noComma.1).symm ?_ rfl rfl
    (present_self _ fun s hs => (hr.volume s hs).1).symm (present_self _ fun s hs => (hr.page s hs).1).symm).2
  show r.title = (present r.title).map noParens
  rw [present_self _ (fun s hs => (hr.title s hs).1)]
  cases h : r.title with
  | none => rfl
  | some t => rw [Option.map_some, noParens_self t (hr.title t h).2.1 (hr.title t h).2.2]

section
variable {W : World} {order : List Model.Scopus.Rec → List Model.Scopus.Rec} (before : Model.Scopus.Rec → List (Op String SVal)) {papers : List Paper} {ref : Paper → Ref}
  {refs : Paper → List Str}

theorem text_value {p : Paper} (hp : PaperOk p) (c k : String) (hc : c ∈ textColumns) (hk : NameOf c k) : value W before k (toRec p) = .ok ((p c).value.map .text) := by
  have hcol : ∀ c ∈ textColumns, c ∈ columns ∧ scopusKinds.get? c.toList = some .string := by decide +kernel
  obtain ⟨h1, h2⟩ := hcol c hc
  rw [value_eq W before hp c k h1 hk]
  unfold direct
  cases (p c).value with
  | none => rfl
  | some t => simp only [cls, OtherFields.kind_of W.prims h2, processScopus]; rfl

theorem textVal_map (o : Option Str) : textVal (o.map SVal.text) = .ok o := by cases o <;> rfl

theorem create_eq (hT : Texts W) {p : Paper} (hp : PaperOk p) (r : Ref) (hd : Describes r p) (hr : RefOk W.chars r) :
    createCitation W before (toRec p) = .ok (work W r.line) := by
  obtain ⟨first, others, ha, hra⟩ := hd.author
  have h1 := value_list W before hp "Authors" ", " "authorsShort" (by decide) (.inr (by decide)) _ ha
  rw [if_neg (by simp)] at h1
  have h2 := text_value (W := W) before hp "Title" "title" (by decide) (.inr (by decide))
  have h4 := text_value (W := W) before hp "Source title" "journal" (by decide) (.inr (by decide))
  have h5 := text_value (W := W) before hp "Volume" "volume" (by decide) (.inr (by decide))
  have h6 := text_value (W := W) before hp "Page start" "beginningPage" (by decide) (.inr (by decide))
  have h3 : value W before "year" (toRec p) = .ok (some (.num r.year)) := by
    rw [value_eq W before hp "Year" "year" (by decide) (.inr (by decide))]
    unfold direct
    rw [hd.year]
    simp only [cls, OtherFields.kind_of W.prims (show scopusKinds.get? "Year".toList = some .integer by decide +kernel), processScopus, hT.int]
    rfl
  unfold Model.ScopusWhoCites.createCitation
  rw [h1, h2, h3, h4, h5, h6]
  simp only [bind, Except.bind, Model.ScopusPipeline.names, Model.ScopusWhoCites.yearVal, textVal_map, pure, Except.pure]
  obtain ⟨e, _⟩ := cite_eq hT.chars hT.letter ⟨first :: others, (p "Title").value, some r.year, (p "Source title").value, (p "Volume").value, (p "Page start").value⟩ r hr rfl hra
    hd.title rfl hd.journal hd.volume hd.page
  rw [e, work_eq]

/-- What a paper cites. -/
abbrev cites (W : World) (refs : Paper → List Str) (p : Paper) : List Model.Citation.Cite := (refs p).map (work W)

theorem cited_perm (ho : ∀ rs, (order rs).Perm rs) (hf : FileOk papers) (hT : Texts W) (href : Referable W papers ref)
    (hi : ∀ p ∈ papers, Lists "; " (p "References") (refs p)) :
    ∃ vals, cited W before (order (papers.map toRec)) = .ok vals ∧
      vals.Perm (papers.map (Lemmas.FileCites.both (fun p => work W (ref p).line) (cites W refs))) := by
  obtain ⟨of, hof⟩ := paper_of hf
  refine ⟨(order (papers.map toRec)).map (fun r => Lemmas.FileCites.both (fun p => work W (ref p).line) (cites W refs) (of r)), ?_, ?_⟩
  · unfold cited
    apply Lemmas.Pipeline.mapM_ok
    intro r hr
    obtain ⟨p, hp, hpok, rfl⟩ := of_order ho hf hr
    obtain ⟨d1, d2⟩ := href p hp
    rw [create_eq before hT hpok _ d1 d2, value_eq W before hpok "References" "citations" (by decide) (.inr (by decide)), hof p hp]
    unfold direct Lemmas.FileCites.both
    rcases hi p hp with ⟨h1, h2⟩ | ⟨h1, h2, h3⟩
    · rw [h1, if_pos (by simp [cites, h2])]; rfl
    · rw [h2, if_neg (by simpa using h1)]
      have := ((OtherFields.C71_scopus_lists W.prims (refs p) h1).2.2 h3).2.2
      simp only [cls, this]
      have hw : cites W refs p = (refs p).map (fun s => (parseScopus W.chars s).cite) := List.map_congr_left (fun s _ => work_eq W s)
      rw [hw]
      rfl
  · refine ((ho (papers.map toRec)).map _).trans (List.Perm.of_eq ?_)
    rw [List.map_map]
    exact List.map_congr_left (fun p hp => by simp only [Function.comp, hof p hp])

theorem label_ne (upper : Str → Str) (r : Ref) : r.label upper ≠ [] := by
  unfold Ref.label
  simp

theorem own_id (hT : Texts W) (href : Referable W papers ref) (p : Paper) (hp : p ∈ papers) : (work W (ref p).line).id = lab W (ref p) := by
  rw [work_eq]
  exact (read_line hT.chars hT.letter _ (href p hp).2).1

theorem own_year (hT : Texts W) (href : Referable W papers ref) (p : Paper) (hp : p ∈ papers) : (work W (ref p).line).year ≠ none := by
  rw [work_eq, (read_line hT.chars hT.letter _ (href p hp).2).2]
  exact Option.some_ne_none _

theorem own_ne (hT : Texts W) (href : Referable W papers ref) (p : Paper) (hp : p ∈ papers) : (work W (ref p).line).id ≠ [] := by
  rw [own_id hT href p hp]
  exact label_ne _ _

open Classical in
/-- **C119, citations.** The citation network made from a Scopus file. Each entry under `References` is read as a work, and each paper stands in the network under the label of
its reference: first author, year and journal. Each paper that the options keep is joined to the works it lists that the options keep, as often as it lists them. -/
theorem C119_citation (ho : ∀ rs, (order rs).Perm rs) (hf : FileOk papers) (hT : Texts W) (href : Referable W papers ref)
    (hi : ∀ p ∈ papers, Lists "; " (p "References") (refs p)) (env : Model.CiteNetworks.Env) (o : Model.CiteNetworks.Opts) (hnt : o.nodeType = .full)
    (directed recordToCite : Bool) (hmode : o.weighted = true ∨ recordToCite = true) :
    ∃ g, citationNet W before order env o directed recordToCite (fileText papers) = some (.ok (.ok g)) ∧ g.directed = directed ∧
      ∀ Keep : Model.Citation.Cite → Prop, (∀ c, Keep c ↔ Wanted env .full o.dropAnon o.dropNonJournals o.keyWords
          (if o.coreOnly then some (papers.map (fun p => work W (ref p).line)) else none) c) →
      (∀ u v : Str, g.edge? (.str u) (.str v) = edgeFor o.weighted (papers.map (fun p => if Keep (work W (ref p).line) then
        headLinks directed recordToCite (lab W (ref p)) ((((refs p).map (work W)).filter (fun c => decide (Keep c))).map (fun c => c.id)) u v else 0)).sum) ∧
      ∀ n, g.hasNode n = true ↔ ∃ p ∈ papers, refs p ≠ [] ∧ Keep (work W (ref p).line) ∧
        (n = .str (lab W (ref p)) ∨ ∃ line ∈ refs p, Keep (work W line) ∧ n = .str (work W line).id) := by
  obtain ⟨vals, h1, h2⟩ := cited_perm before ho hf hT href hi
  obtain ⟨g, g1, g2, g3⟩ := Lemmas.FileCites.citation h2 env o hnt directed recordToCite hmode (own_year hT href) (own_ne hT href)
  refine ⟨g, ?_, g2, fun Keep hK => ?_⟩
  · unfold Model.ScopusWhoCites.citationNet
    rw [records_eq order hf]
    simp only [Option.map_some]
    rw [h1]
    exact congrArg (fun x => some (Except.ok x)) g1
  obtain ⟨g4, g5⟩ := g3 Keep hK
  refine ⟨fun u v => ?_, fun n => ?_⟩
  · rw [g4]
    refine congrArg _ (congrArg _ (List.map_congr_left fun p hp => ?_))
    rw [own_id hT href p hp]
  · rw [g5]
    constructor
    · rintro ⟨p, hp, k1, k2, k3⟩
      refine ⟨p, hp, by simpa using k1, k2, ?_⟩
      rcases k3 with k3 | ⟨c, hc, hk, hn⟩
      · exact .inl (by rw [k3, own_id hT href p hp])
      · obtain ⟨line, hl, rfl⟩ := List.mem_map.1 hc
        exact .inr ⟨line, hl, hk, hn⟩
    · rintro ⟨p, hp, k1, k2, k3⟩
      refine ⟨p, hp, by simpa using k1, k2, ?_⟩
      rcases k3 with k3 | ⟨line, hl, hk, hn⟩
      · exact .inl (by rw [k3, own_id hT href p hp])
      · exact .inr ⟨_, List.mem_map_of_mem hl, hk, hn⟩

/-- **C119, without options.** From the label of each paper there is an edge to what each entry under `References` stands for, with the number of those entries; there is no
other edge, and no node but the papers that cite something and what they cite. -/
theorem C119_links (ho : ∀ rs, (order rs).Perm rs) (hf : FileOk papers) (hT : Texts W) (href : Referable W papers ref)
    (hi : ∀ p ∈ papers, Lists "; " (p "References") (refs p)) (env : Model.CiteNetworks.Env) (count weighted : Bool) :
    ∃ g, citationNet W before order env ⟨.full, false, false, .none, false, count, weighted⟩ true true (fileText papers) = some (.ok (.ok g)) ∧ g.directed = true ∧
      (∀ u v : Str, g.edge? (.str u) (.str v) = edgeFor weighted (papers.map (fun p =>
        if lab W (ref p) = u then (refs p).countP (fun line => decide ((work W line).id = v)) else 0)).sum) ∧
      ∀ n, g.hasNode n = true ↔ ∃ p ∈ papers, refs p ≠ [] ∧ (n = .str (lab W (ref p)) ∨ ∃ line ∈ refs p, n = .str (work W line).id) := by
  obtain ⟨g, g1, g2, g3⟩ := C119_citation before ho hf hT href hi env ⟨.full, false, false, .none, false, count, weighted⟩ rfl true true (.inr rfl)
  obtain ⟨g4, g5⟩ := g3 (fun _ => True) (by
    intro c
    unfold Wanted
    simp [HasValue, KeyWords.toList])
  refine ⟨g, g1, g2, fun u v => ?_, fun n => ?_⟩
  · rw [g4]
    refine congrArg _ (congrArg _ (List.map_congr_left fun p _ => ?_))
    have he : ((refs p).map (work W)).filter (fun _ => @decide True (Classical.propDecidable True)) = (refs p).map (work W) :=
      List.filter_eq_self.2 (fun _ _ => @decide_eq_true _ (Classical.propDecidable True) trivial)
    rw [if_pos trivial, he, List.map_map]
    unfold headLinks
    rw [if_pos rfl, if_pos rfl]
    unfold List.count
    rw [List.countP_map]
    refine if_congr Iff.rfl (List.countP_congr fun line _ => ?_) rfl
    simp
  · rw [g5]
    simp only [true_and]

/-- **C119, a cited paper is found**, when the entry has the author as the column `Authors` writes it, with no comma in the name, and the same year and journal; title, volume,
page and the case of letters need not agree. What is missing: the entries of Scopus are not written in this way, see `C119_not_found`. -/
theorem C119_found_partial (ho : ∀ rs, (order rs).Perm rs) (hf : FileOk papers) (hT : Texts W) (href : Referable W papers ref)
    (hi : ∀ p ∈ papers, Lists "; " (p "References") (refs p)) (env : Model.CiteNetworks.Env) (count weighted : Bool)
    {p q : Paper} (hq : q ∈ papers) (r : Ref) (hr : RefOk W.chars r) (hline : r.line ∈ refs q) (hsame : lab W r = lab W (ref p)) :
    ∃ g, citationNet W before order env ⟨.full, false, false, .none, false, count, weighted⟩ true true (fileText papers) = some (.ok (.ok g)) ∧
      g.hasEdge (.str (lab W (ref q))) (.str (lab W (ref p))) = true := by
  obtain ⟨g, g1, _, g3, _⟩ := C119_links before ho hf hT href hi env count weighted
  refine ⟨g, g1, ?_⟩
  unfold Graph.hasEdge
  rw [g3]
  unfold edgeFor
  rw [if_neg, Option.isSome_some]
  intro h0
  have := List.sum_eq_zero_iff_forall_eq_nat.1 h0 _ (List.mem_map_of_mem hq)
  rw [if_pos rfl, List.countP_eq_zero] at this
  refine this _ hline (decide_eq_true ?_)
  rw [work_eq, (read_line hT.chars hT.letter r hr).1]
  exact hsame

open Classical in
/-- **C119, co-citation.** The co-citation network made from a Scopus file: two works are joined with the number of times they are listed together. With `coreOnly` it has only
works with the hash of the label of a paper of the file. -/
theorem C119_core (ho : ∀ rs, (order rs).Perm rs) (hf : FileOk papers) (hT : Texts W) (href : Referable W papers ref)
    (hi : ∀ p ∈ papers, Lists "; " (p "References") (refs p)) (env : Model.CiteNetworks.Env) (o : Model.CiteNetworks.Opts) (hnt : o.nodeType = .full) :
    ∃ g, coCited W before order env o (fileText papers) = some (.ok (.ok g)) ∧ g.directed = false ∧
      ∀ Keep : Model.Citation.Cite → Prop, (∀ c, Keep c ↔ Wanted env .full o.dropAnon o.dropNonJournals o.keyWords
          (if o.coreOnly then some (papers.map (fun p => work W (ref p).line)) else none) c) →
      (∀ u v : Str, g.edge? (.str u) (.str v) = edgeFor o.weighted (papers.map (fun p =>
        pairsShared ((((refs p).map (work W)).filter (fun c => decide (Keep c))).map (fun c => c.id)) u v)).sum) ∧
      ∀ n, g.hasNode n = true ↔ ∃ p ∈ papers, ∃ line ∈ refs p, Keep (work W line) ∧ n = .str (work W line).id := by
  obtain ⟨vals, h1, h2⟩ := cited_perm before ho hf hT href hi
  obtain ⟨g, g1, g2, g3⟩ := Lemmas.FileCites.cocitation h2 env o hnt
  refine ⟨g, ?_, g2, fun Keep hK => ?_⟩
  · unfold Model.ScopusWhoCites.coCited
    rw [records_eq order hf]
    simp only [Option.map_some]
    rw [h1]
    exact congrArg (fun x => some (Except.ok x)) g1
  obtain ⟨g4, g5⟩ := g3 Keep hK
  refine ⟨g4, fun n => ?_⟩
  rw [g5]
  constructor
  · rintro ⟨p, hp, c, hc, hk, hn⟩
    obtain ⟨line, hl, rfl⟩ := List.mem_map.1 hc
    exact ⟨p, hp, line, hl, hk, hn⟩
  · rintro ⟨p, hp, line, hl, hk, hn⟩
    exact ⟨p, hp, _, List.mem_map_of_mem hl, hk, hn⟩

/-- A paper with the label `u` cites what is called `n`. -/
def CitesName (W : World) (papers : List Paper) (ref : Paper → Ref) (refs : Paper → List Str) (u n : Str) : Prop :=
  ∃ p ∈ papers, lab W (ref p) = u ∧ ∃ line ∈ refs p, (work W line).id = n

/-- **C119, coupling.** In the network of bibliographic coupling made from a Scopus file, two papers are joined with the number of different works that both cite, however often
and in whatever order they list them. The papers in it are those that cite something or are cited. -/
theorem C119_coupling (ho : ∀ rs, (order rs).Perm rs) (hf : FileOk papers) (hT : Texts W) (href : Referable W papers ref)
    (hi : ∀ p ∈ papers, Lists "; " (p "References") (refs p)) (env : Model.CiteNetworks.Env) (weighted : Bool)
    (shuffle : List Model.CiteNetworks.NodeId → List Model.CiteNetworks.NodeId) (hsh : ∀ l, (shuffle l).Perm l) :
    ∃ g, coupling W before order env weighted shuffle (fileText papers) = some (.ok (.ok g)) ∧ g.directed = false ∧
      (∀ u v : Str, u ≠ v → ∀ common : List Str, common.Nodup → (∀ n, n ∈ common ↔ CitesName W papers ref refs u n ∧ CitesName W papers ref refs v n) →
        g.edge? (.str u) (.str v) = edgeFor weighted common.length) ∧
      (∀ u, g.edge? u u = none) ∧
      (∀ s, g.hasNode (.str s) = true ↔ (∃ p ∈ papers, env.hash (lab W (ref p)) = env.hash s) ∧
        ∃ p ∈ papers, refs p ≠ [] ∧ (lab W (ref p) = s ∨ ∃ line ∈ refs p, (work W line).id = s)) ∧
      ∀ n, g.hasNode (.num n) = false := by
  obtain ⟨vals, h1, h2⟩ := cited_perm before ho hf hT href hi
  obtain ⟨g, g1, g2, g3, g4, g5, g6⟩ := Lemmas.FileCites.coupling h2 env weighted shuffle hsh (own_year hT href) (own_ne hT href)
  have hcn : ∀ u n : Str, (∃ p ∈ papers, (work W (ref p).line).id = u ∧ ∃ c ∈ cites W refs p, c.id = n) ↔ CitesName W papers ref refs u n := by
    intro u n
    unfold CitesName
    constructor
    · rintro ⟨p, hp, e, c, hc, hn⟩
      obtain ⟨line, hl, rfl⟩ := List.mem_map.1 hc
      exact ⟨p, hp, by rw [← own_id hT href p hp, e], line, hl, hn⟩
    · rintro ⟨p, hp, e, line, hl, hn⟩
      exact ⟨p, hp, by rw [own_id hT href p hp, e], _, List.mem_map_of_mem hl, hn⟩
  refine ⟨g, ?_, g2, fun u v huv common hnd hc => g3 u v huv common hnd (fun n => by rw [hc n, hcn, hcn]), g4, fun s => ?_, g6⟩
  · unfold Model.ScopusWhoCites.coupling
    rw [records_eq order hf]
    simp only [Option.map_some]
    rw [h1]
    exact congrArg (fun x => some (Except.ok x)) g1
  · rw [g5]
    apply and_congr
    · constructor
      · rintro ⟨p, hp, e⟩
        exact ⟨p, hp, by rw [← own_id hT href p hp]; exact e⟩
      · rintro ⟨p, hp, e⟩
        exact ⟨p, hp, by rw [own_id hT href p hp]; exact e⟩
    · constructor
      · rintro ⟨p, hp, k1, k2⟩
        refine ⟨p, hp, by simpa using k1, ?_⟩
        rcases k2 with k2 | ⟨c, hc, hn⟩
        · exact .inl (by rw [← own_id hT href p hp, k2])
        · obtain ⟨line, hl, rfl⟩ := List.mem_map.1 hc
          exact .inr ⟨line, hl, hn⟩
      · rintro ⟨p, hp, k1, k2⟩
        refine ⟨p, hp, by simpa using k1, ?_⟩
        rcases k2 with k2 | ⟨line, hl, hn⟩
        · exact .inl (by rw [own_id hT href p hp, k2])
        · exact .inr ⟨_, List.mem_map_of_mem hl, hn⟩

end

/-! ## References as Scopus writes them -/

/-- An entry as Scopus writes it: `Barth, C., Electro-mechanical properties … (2015) Supercond. Sci. Technol., 28 (4)`, with a comma between the family name and the
initials, the first of which is no digit. -/
def Inverted (C : Chars) (s : Str) : Prop :=
  ∃ family initial rest, s = family ++ ", ".toList ++ initial :: rest ∧ (∀ c ∈ family, c ≠ ',') ∧ (∀ c ∈ C.upper family, C.word c = true ∨ c = '-' ∨ c = ' ') ∧
    isDig initial = false ∧ ∀ d ∈ C.up initial, isDig d = false

theorem join_head (sep w : Str) (l : List Str) : ∃ t, Str.join sep (w :: l) = w ++ t := by
  cases l with
  | nil => exact ⟨[], by rw [Str.join, List.append_nil]⟩
  | cons x l => exact ⟨sep ++ Str.join sep (x :: l), by rw [Str.join, List.append_assoc]⟩

/-- The identifying string of a citation that is read begins with the author. -/
theorem id_author {C : Chars} {s : Str} {caps : List (Nat × Str)} (hm : Regex.matchStart (Model.CiteParse.scopusRe C) (C.upper s) = some caps) {w : Str} (hw : w ≠ [])
    (hg : Regex.group caps 1 = some w) : ∃ t, (parseScopus C s).cite.id = w ++ t := by
  unfold parseScopus
  rw [hm]
  dsimp only
  rw [hg, Verif.Props.CiteParse.truthy_some w hw]
  split
  · rename_i a y j h1 h2 h3
    obtain rfl : w = a := by simpa using h1
    exact ⟨", ".toList ++ (showInt y ++ (", ".toList ++ j)), by dsimp only; unfold Model.CiteParse.fullId; simp only [List.append_assoc]⟩
  · dsimp only
    unfold Model.CiteParse.partId
    rw [Verif.Props.CiteParse.truthy_some w hw]
    exact join_head _ _ _

/-- The string that an inverted entry stands for has a comma and something that is no digit where the label of a paper has the year. -/
theorem inverted_id {C : Chars} (hC : CharsOk C) {s : Str} (h : Inverted C s) :
    ∃ f d t, (parseScopus C s).cite.id = f ++ ',' :: ' ' :: d :: t ∧ ',' ∉ f ∧ isDig d = false := by
  obtain ⟨family, initial, rest, rfl, hf0, hf, hd, hu⟩ := h
  cases hm : Regex.matchStart (Model.CiteParse.scopusRe C) (C.upper (family ++ ", ".toList ++ initial :: rest)) with
  | none =>
    refine ⟨family, initial, rest, ?_, fun hm => hf0 _ hm rfl, hd⟩
    unfold parseScopus
    rw [hm]
    simp
  | some caps =>
    have hm0 := hm
    unfold Regex.matchStart at hm
    obtain ⟨x, hx, rfl⟩ := Option.map_eq_some_iff.1 hm
    obtain ⟨s', hr, hs'⟩ := Regex.m_sound _ _ _ _ hx
    cases hs'
    obtain ⟨s1, ⟨s0, w1, h1, e1, hs1⟩, s2, h2, hrest⟩ := hr
    have hg : Regex.group x.caps 1 = some w1 := by
      rw [Regex.rel_group _ _ _ hrest 1 (by simp [Regex.groups, Model.CiteParse.scopusName, Model.CiteParse.plus, Model.CiteParse.star]), h2.2, hs1]
      rfl
    obtain ⟨f, i, comma, hcm, e, hfn, hfn0, hi⟩ := rel_name hC _ _ h1
    obtain ⟨d, ds, hds⟩ : ∃ d ds, C.up initial = d :: ds := by
      cases hz : C.up initial with
      | nil => exact absurd hz (hC.ne initial)
      | cons d ds => exact ⟨d, ds, rfl⟩
    have hcf : ',' ∉ f := fun hm => nameChar_mark hC _ (hfn _ hm) (by decide)
    have hci : ',' ∉ i := fun hm => initialChar_mark hC _ (hi _ hm) (by decide)
    have hcu : ',' ∉ C.upper family := upper_mark hC ',' (by decide) _ (fun hm => hf0 _ hm rfl)
    have hup : C.upper (family ++ ", ".toList ++ initial :: rest) = C.upper family ++ ',' :: ' ' :: d :: (ds ++ C.upper rest) := by
      rw [Verif.Props.CiteParse.upper_append, Verif.Props.CiteParse.upper_append, upper_fixed' hC ", ".toList (by decide)]
      have : C.upper (initial :: rest) = d :: (ds ++ C.upper rest) := by
        show C.up initial ++ C.upper rest = _
        rw [hds]; rfl
      rw [this]; simp
    have hw1 : w1 = f ++ comma ++ " ".toList ++ i ++ ".".toList := by
      dsimp only at e1 e
      rw [e1] at e
      exact List.append_cancel_right e
    have hw0 : w1 ≠ [] := by rw [hw1]; simp
    obtain ⟨t, ht⟩ := id_author hm0 hw0 hg
    rcases hcm with rfl | rfl
    · exfalso
      have hs0 : s0.rest = ", ".toList ++ s2.rest := by rw [← h2.1, hs1]
      have hc2 : ',' ∉ f ++ " ".toList ++ i ++ ".".toList := by
        intro hm
        simp only [List.mem_append] at hm
        rcases hm with ((hm | hm) | hm) | hm
        · exact hcf hm
        · revert hm; decide
        · exact hci hm
        · revert hm; decide
      have : C.upper family ++ ',' :: (' ' :: d :: (ds ++ C.upper rest)) = (f ++ " ".toList ++ i ++ ".".toList) ++ ',' :: (' ' :: s2.rest) := by
        dsimp only at e
        rw [← hup, e, hs0]
        simp
      have := (before hcu hc2 this).1
      have hdot : '.' ∈ C.upper family := by rw [this]; simp
      rcases hf _ hdot with h | h | h
      · rw [hC.word '.' (by decide)] at h; cases h
      · revert h; decide
      · revert h; decide
    · have : C.upper family ++ ',' :: (' ' :: d :: (ds ++ C.upper rest)) = f ++ ',' :: (" ".toList ++ i ++ ".".toList ++ s0.rest) := by
        dsimp only at e
        rw [← hup, e]
        simp
      obtain ⟨q1, q2⟩ := before hcu hcf this
      have hdd : isDig d = false := hu d (by rw [hds]; simp)
      have hi' : ∃ i', i ++ ".".toList = d :: i' := by
        cases i with
        | nil => exact ⟨[], by simp at q2; simp [q2.1]⟩
        | cons c i => exact ⟨i ++ ".".toList, by simp at q2; simp [q2.1]⟩
      obtain ⟨i', hi'⟩ := hi'
      refine ⟨f, d, i' ++ t, ?_, hcf, hdd⟩
      rw [ht, hw1, List.append_assoc _ i, hi']
      simp

/-- **C119 fails: no cited paper is found.** An entry as Scopus writes it, with a comma after the family name, never stands for a paper, whose label has no such comma: not even
when it has the author, the year and the journal of that paper. -/
theorem inverted_ne {W : World} (hC : CharsOk W.chars) {line : Str} (h : Inverted W.chars line) (r : Ref) (hr : ',' ∉ r.author) : (work W line).id ≠ lab W r := by
  intro e
  obtain ⟨f, d, t, h1, h2, h3⟩ := inverted_id hC h
  rw [work_eq, h1] at e
  have hlab : lab W r = W.chars.upper r.author ++ ',' :: (' ' :: (showNat r.year ++ (", ".toList ++ W.chars.upper r.journal))) := by
    unfold lab Ref.label
    simp
  rw [hlab] at e
  have := (before h2 (upper_mark hC ',' (by decide) _ hr) e).2
  cases hs : showNat r.year with
  | nil => exact showNat_ne_nil _ hs
  | cons c l =>
    rw [hs] at this
    simp only [List.cons_append, List.cons.injEq, true_and] at this
    have hdig := showNat_digits r.year c (by rw [hs]; simp)
    rw [← this.1, h3] at hdig
    cases hdig

section
variable {W : World} {order : List Model.Scopus.Rec → List Model.Scopus.Rec} (before : Model.Scopus.Rec → List (Op String SVal)) {papers : List Paper} {ref : Paper → Ref}
  {refs : Paper → List Str}

/-- **C119 fails: no cited paper is found.** In a file with the entries as Scopus writes them no edge of the citation network leads to a paper of the file, though papers cite
each other; and with `coreOnly` the co-citation network of the file is empty (when different labels have different hashes). -/
theorem C119_not_found (ho : ∀ rs, (order rs).Perm rs) (hf : FileOk papers) (hT : Texts W) (href : Referable W papers ref)
    (hi : ∀ p ∈ papers, Lists "; " (p "References") (refs p)) (hinv : ∀ p ∈ papers, ∀ line ∈ refs p, Inverted W.chars line)
    (env : Model.CiteNetworks.Env) (count weighted : Bool) :
    (∃ g, citationNet W before order env ⟨.full, false, false, .none, false, count, weighted⟩ true true (fileText papers) = some (.ok (.ok g)) ∧
      ∀ p ∈ papers, ∀ u : Str, g.hasEdge (.str u) (.str (lab W (ref p))) = false) ∧
    ((∀ a b, env.hash a = env.hash b → a = b) →
      ∃ g, coCited W before order env ⟨.full, false, false, .none, true, count, weighted⟩ (fileText papers) = some (.ok (.ok g)) ∧ ∀ n, g.hasNode n = false) := by
  have hne : ∀ p ∈ papers, ∀ q ∈ papers, ∀ line ∈ refs q, (work W line).id ≠ lab W (ref p) :=
    fun p hp q hq line hl => inverted_ne hT.chars (hinv q hq line hl) _ (href p hp).2.noComma.1
  constructor
  · obtain ⟨g, g1, _, g3, _⟩ := C119_links before ho hf hT href hi env count weighted
    refine ⟨g, g1, fun p hp u => ?_⟩
    unfold Graph.hasEdge
    rw [g3]
    unfold edgeFor
    rw [if_pos, Option.isSome_none]
    apply List.sum_eq_zero_iff_forall_eq_nat.2
    intro x hx
    obtain ⟨q, hq, rfl⟩ := List.mem_map.1 hx
    split
    · rw [List.countP_eq_zero]
      intro line hl
      rw [decide_eq_true_eq]
      exact hne p hp q hq line hl
    · rfl
  · intro hinj
    obtain ⟨g, g1, _, g3⟩ := C119_core before ho hf hT href hi env ⟨.full, false, false, .none, true, count, weighted⟩ rfl
    obtain ⟨_, g5⟩ := g3 _ (fun _ => Iff.rfl)
    refine ⟨g, g1, fun n => Bool.eq_false_iff.2 fun hn => ?_⟩
    obtain ⟨q, hq, line, hl, hk, _⟩ := (g5 n).1 hn
    obtain ⟨d, hd, e⟩ := hk.2.2.2.1 _ rfl
    obtain ⟨p, hp, rfl⟩ := List.mem_map.1 hd
    exact hne p hp q hq line hl (by rw [← hinj _ _ e, own_id hT href p hp])

end
/-! ## Two files: in both the second and the third paper cite the first, once in the way of Scopus and once in that of the column `Authors` -/

open Verif.Props.ScopusPipeline (w paper listed)

/-- How the second and the third paper list what they cite. -/
def second (scopus : Bool) : String :=
  if scopus then "Nunez, R., What? (1998) Math Cognition, 4, pp. 85-113; Lieber, M., A book (1990) Other, 1" else "Nunez R., What? (1998) MATH Cognition, 4, PP. 85; Lieber M., A book (1990) Other, 1"
def third (scopus : Bool) : String :=
  if scopus then "Lieber, M., The book (1990) Other, 1; Nunez, R., What (1998) Math Cognition, 4" else "Lieber M., The book (1990) Other, 1; Nunez R., (1998) Math Cognition, "

def file (scopus : Bool) : List Paper :=
  [paper [("Authors", .quoted "Nunez R., Lakoff G.".toList), ("Title", .quoted "What (really)?".toList), ("Year", .bare "1998".toList), ("Source title", .quoted "Math Cognition".toList),
     ("Volume", .bare "4".toList), ("Page start", .bare "85".toList), ("EID", .quoted "11".toList)],
   paper [("Authors", .quoted "Dee A.".toList), ("Title", .quoted "Two".toList), ("Year", .bare "2001".toList), ("Source title", .bare "Physica A".toList),
     ("References", .quoted (second scopus).toList), ("EID", .bare "12".toList)],
   paper [("Authors", .bare "Fay C.-D.".toList), ("Year", .bare "2003".toList), ("Source title", .bare "Physica A".toList), ("Volume", .bare "7".toList),
     ("References", .quoted (third scopus).toList), ("EID", .bare "13".toList)]]

private theorem cell_ok (cell : Cell) (h : (match cell with
    | .bare s => decide (',' ∉ s ∧ s.getLast? ≠ some '"')
    | .quoted v => decide ('"' ∉ v ∧ v.head? ≠ none ∧ ∀ c ∈ v.head?, c ∉ ['"', ',', '|', '$'])) = true) : cell.Ok := by
  cases cell with
  | bare s => exact of_decide_eq_true (p := ',' ∉ s ∧ s.getLast? ≠ some '"') h
  | quoted v =>
    obtain ⟨h1, h2, h3⟩ := of_decide_eq_true h
    refine ⟨⟨v, (Verif.Props.ScopusPipeline.escape_plain v h1).symm⟩, fun _ => ?_⟩
    cases v with
    | nil => exact absurd rfl h2
    | cons c t => exact ⟨0, c, t, rfl, h3 c rfl⟩

private theorem file_cells : ∀ b, ∀ p ∈ file b, ∀ c ∈ columns, (match p c with
    | .bare s => decide (',' ∉ s ∧ s.getLast? ≠ some '"')
    | .quoted v => decide ('"' ∉ v ∧ v.head? ≠ none ∧ ∀ c ∈ v.head?, c ∉ ['"', ',', '|', '$'])) = true ∧ '\n' ∉ (p c).text ∧ '\r' ∉ (p c).text := by
  decide +kernel

private theorem not_infix {x y : Str} (h : Str.contains x y = false) : ¬ x <:+: y := fun hi => by rw [(Str.contains_iff _ _).2 hi] at h; cases h

theorem file_ok (b : Bool) : FileOk (file b) where
  each p hp := {
    cells := fun c hc => ⟨cell_ok _ (file_cells b p hp c hc).1, (file_cells b p hp c hc).2⟩
    number := by
      have : ∀ b, ∀ p ∈ file b, (p "EID").value ≠ none := by decide +kernel
      cases h : (p "EID").value with
      | none => exact absurd h (this b p hp)
      | some e => exact ⟨e, rfl⟩ }
  different := by revert b; decide +kernel
  notWos := by
    have : ∀ b, ∀ p ∈ file b, Str.contains "VR 1.0".toList (lineText p) = false := by decide +kernel
    exact fun p hp => not_infix (this b p (List.mem_of_mem_take hp))
  notMedline := by
    have : ∀ b, ∀ p ∈ file b, ¬ "PMID- ".toList <+: lineText p := by decide +kernel
    exact fun p hp => this b p (List.mem_of_mem_head? hp)

def refs : Paper → List Str := listed "References" "; ".toList

theorem refs_ok (b : Bool) : ∀ p ∈ file b, Lists "; " (p "References") (refs p) := by
  intro p hp
  have : ∀ b, ∀ p ∈ file b, (p "References").value = none ∧ refs p = [] ∨ ((p "References").value = some ("; ".toList.intercalate (refs p)) ∧
    refs p ≠ [] ∧ ∀ x ∈ refs p, Str.contains "; ".toList x = false) := by decide +kernel
  rcases this b p hp with h | ⟨h1, h2, h3⟩
  · exact .inl h
  · exact .inr ⟨h2, h1, fun x hx => not_infix (h3 x hx)⟩

theorem texts : Texts w where
  chars := ascii_ok
  letter := by decide
  int n := by
    obtain ⟨h1, h2, h3⟩ := showAux_spec (n + 1) n (by omega)
    show (if (!(showNat n).isEmpty && (showNat n).all isDig) = true then some ((readNat (showNat n) : Nat) : Int) else none) = _
    rw [if_pos, readNat_showNat]
    have h4 : (showNat n).all isDig = true := List.all_eq_true.2 h2
    have h5 : (showNat n).isEmpty = false := by
      have : showNat n ≠ [] := h3
      simpa using this
    rw [h4, h5]; rfl

def nunez : Ref := ⟨"Nunez R.".toList, some "What really?".toList, 1998, "Math Cognition".toList, some "4".toList, some "85".toList⟩
def dee : Ref := ⟨"Dee A.".toList, some "Two".toList, 2001, "Physica A".toList, none, none⟩
def fay : Ref := ⟨"Fay C.-D.".toList, none, 2003, "Physica A".toList, some "7".toList, none⟩
/-- As the third paper lists the first one in the second file. -/
def short : Ref := ⟨"Nunez R.".toList, none, 1998, "Math Cognition".toList, none, none⟩

def refOf (p : Paper) : Ref :=
  if (p "EID").value = some "11".toList then nunez else if (p "EID").value = some "12".toList then dee else fay

private theorem ref_ok (r : Ref) (family initials : Str) (h1 : w.chars.upper r.author = family ++ " ".toList ++ initials ++ ".".toList) (h2 : family ≠ []) (h3 : initials ≠ [])
    (h4 : ∀ c ∈ family, w.chars.word c = true ∨ c = '-' ∨ c = ' ') (h5 : ∀ c ∈ initials, w.chars.word c = true ∨ c = '.' ∨ c = '-')
    (h6 : ',' ∉ r.author ∧ ',' ∉ r.journal) (h7 : 10 ≤ r.year ∧ r.year < 100000) (h8 : r.journal ≠ []) (h9 : ∀ t ∈ r.title.toList, t ≠ [] ∧ '(' ∉ t ∧ ')' ∉ t)
    (h10 : ∀ s ∈ r.volume.toList ++ r.page.toList, s ≠ [] ∧ w.chars.upper s ≠ [] ∧ ∀ c ∈ w.chars.upper s, w.chars.word c = true ∨ c = '-') : RefOk w.chars r where
  name := ⟨family, initials, h1, h2, h4, h3, h5⟩
  noComma := h6
  year := h7
  journal := h8
  title t ht := h9 t (by rw [ht]; simp)
  volume s hs := h10 s (by rw [hs]; simp)
  page s hs := h10 s (by rw [hs]; simp)

theorem short_ok : RefOk w.chars short :=
  ref_ok short "NUNEZ".toList "R".toList (by decide +kernel) (by decide) (by decide) (by decide) (by decide) (by decide) (by decide) (by decide) (by decide) (by decide)

private theorem describes (r : Ref) (p : Paper) (first : Str) (others : List Str) (h1 : (p "Authors").value = some (", ".toList.intercalate (first :: others)))
    (h2 : ∀ a ∈ first :: others, Str.contains ", ".toList a = false) (h3 : r.author = first.filter (fun c => c ≠ ','))
    (h4 : r.title = (textOf p "Title").map (fun t => t.filter (fun c => c ≠ '(' && c ≠ ')'))) (h5 : (p "Year").value = some (showNat r.year))
    (h6 : (p "Source title").value = some r.journal) (h7 : r.volume = textOf p "Volume") (h8 : r.page = textOf p "Page start") : Describes r p where
  author := ⟨first, others, .inr ⟨by simp, h1, fun x hx => not_infix (h2 x hx)⟩, h3⟩
  title := h4
  year := h5
  journal := h6
  volume := h7
  page := h8

theorem referable (b : Bool) : Referable w (file b) refOf := by
  intro p hp
  simp only [file, List.mem_cons, List.not_mem_nil, or_false] at hp
  rcases hp with rfl | rfl | rfl
  · have : refOf (paper [("Authors", .quoted "Nunez R., Lakoff G.".toList), ("Title", .quoted "What (really)?".toList), ("Year", .bare "1998".toList),
      ("Source title", .quoted "Math Cognition".toList), ("Volume", .bare "4".toList), ("Page start", .bare "85".toList), ("EID", .quoted "11".toList)]) = nunez := rfl
    rw [this]
    exact ⟨describes _ _ "Nunez R.".toList ["Lakoff G.".toList] (by decide +kernel) (by decide +kernel) (by decide +kernel) (by decide +kernel) (by decide +kernel)
      (by decide +kernel) (by decide +kernel) (by decide +kernel),
      ref_ok nunez "NUNEZ".toList "R".toList (by decide +kernel) (by decide) (by decide) (by decide) (by decide) (by decide) (by decide) (by decide) (by decide) (by decide)⟩
  · have : ∀ b, refOf (paper [("Authors", .quoted "Dee A.".toList), ("Title", .quoted "Two".toList), ("Year", .bare "2001".toList), ("Source title", .bare "Physica A".toList),
     ("References", .quoted (second b).toList), ("EID", .bare "12".toList)]) = dee := fun _ => rfl
    rw [this]
    exact ⟨describes _ _ "Dee A.".toList [] (by revert b; decide +kernel) (by decide +kernel) (by decide +kernel) (by revert b; decide +kernel) (by revert b; decide +kernel)
      (by revert b; decide +kernel) (by revert b; decide +kernel) (by revert b; decide +kernel),
      ref_ok dee "DEE".toList "A".toList (by decide +kernel) (by decide) (by decide) (by decide) (by decide) (by decide) (by decide) (by decide) (by decide) (by decide)⟩
  · have : ∀ b, refOf (paper [("Authors", .bare "Fay C.-D.".toList), ("Year", .bare "2003".toList), ("Source title", .bare "Physica A".toList), ("Volume", .bare "7".toList),
     ("References", .quoted (third b).toList), ("EID", .bare "13".toList)]) = fay := fun _ => rfl
    rw [this]
    exact ⟨describes _ _ "Fay C.-D.".toList [] (by revert b; decide +kernel) (by decide +kernel) (by decide +kernel) (by revert b; decide +kernel) (by revert b; decide +kernel)
      (by revert b; decide +kernel) (by revert b; decide +kernel) (by revert b; decide +kernel),
      ref_ok fay "FAY".toList "C.-D".toList (by decide +kernel) (by decide) (by decide) (by decide) (by decide) (by decide) (by decide) (by decide) (by decide) (by decide)⟩

/-- In the second file the third paper is joined to the first. -/
example : ∃ g, citationNet w (fun _ => [.item "title"]) List.reverse ⟨id, fun _ => true, fun _ => 0⟩ ⟨.full, false, false, .none, false, true, true⟩ true true
    (fileText (file false)) = some (.ok (.ok g)) ∧ g.hasEdge (.str "FAY C.-D., 2003, PHYSICA A".toList) (.str "NUNEZ R., 1998, MATH COGNITION".toList) = true := by
  obtain ⟨g, h1, h2⟩ := C119_found_partial (fun _ => [.item "title"]) List.reverse_perm (file_ok false) texts (referable false) (refs_ok false) ⟨id, fun _ => true, fun _ => 0⟩
    true true (p := (file false).head (by simp [file])) (q := (file false).getLast (by simp [file])) (List.getLast_mem _) short short_ok (by decide +kernel) (by decide +kernel)
  have e1 : lab w (refOf ((file false).getLast (by simp [file]))) = "FAY C.-D., 2003, PHYSICA A".toList := by decide +kernel
  have e2 : lab w (refOf ((file false).head (by simp [file]))) = "NUNEZ R., 1998, MATH COGNITION".toList := by decide +kernel
  rw [e1, e2] at h2
  exact ⟨g, h1, h2⟩

/-- The entries of the first file are as Scopus writes them, and one has author, year and journal of the first paper. -/
theorem inverted_all : ∀ p ∈ file true, ∀ line ∈ refs p, Inverted w.chars line := by
  have h : ∀ p ∈ file true, ∀ line ∈ refs p, ∃ f ∈ ["Nunez".toList, "Lieber".toList], ∃ i ∈ ['R', 'M'], f ++ ", ".toList ++ [i] <+: line := by decide +kernel
  intro p hp line hl
  obtain ⟨f, hf, i, hi, rest, rfl⟩ := h p hp line hl
  refine ⟨f, i, rest, by simp, ?_, ?_, ?_, ?_⟩
  · clear hl; revert f; decide
  · clear hl; revert f; decide +kernel
  · clear hl; revert i; decide
  · clear hl; revert i; decide +kernel

example := C119_not_found (W := w) (fun _ => []) List.reverse_perm (file_ok true) texts (referable true) (refs_ok true) inverted_all ⟨id, fun _ => true, fun _ => 0⟩ true true

example : ∃ p ∈ file true, (work w "Nunez, R., What? (1998) Math Cognition, 4, pp. 85-113".toList).id = "NUNEZ, R., 1998, MATH COGNITION".toList ∧
    lab w (refOf p) = "NUNEZ R., 1998, MATH COGNITION".toList ∧ "Nunez, R., What? (1998) Math Cognition, 4, pp. 85-113".toList ∈ refs ((file true)[1]'(by simp [file])) := by
  refine ⟨(file true).head (by simp [file]), List.head_mem _, ?_, by decide +kernel, by decide +kernel⟩
  rw [work_eq]
  decide +kernel

/-- In the first file, too, the second paper and the third are coupled by what both cite. -/
example : ∃ g, coupling w (fun _ => []) List.reverse ⟨id, fun _ => true, fun _ => 0⟩ true List.reverse (fileText (file true)) = some (.ok (.ok g)) ∧
    g.edge? (.str "FAY C.-D., 2003, PHYSICA A".toList) (.str "DEE A., 2001, PHYSICA A".toList) = some (some 2) := by
  obtain ⟨g, h1, _, h3, _⟩ := C119_coupling (fun _ => []) List.reverse_perm (file_ok true) texts (referable true) (refs_ok true) ⟨id, fun _ => true, fun _ => 0⟩
    true List.reverse List.reverse_perm
  refine ⟨g, h1, (h3 _ _ (by decide) ["NUNEZ, R., 1998, MATH COGNITION".toList, "LIEBER, M., 1990, OTHER".toList] (by decide) ?_).trans (by decide +kernel)⟩
  intro n
  unfold CitesName
  simp only [work_eq]
  have hall : ∀ u ∈ ["FAY C.-D., 2003, PHYSICA A".toList, "DEE A., 2001, PHYSICA A".toList], ∀ p ∈ file true, lab w (refOf p) = u → ∀ line ∈ refs p,
      (parseScopus w.chars line).cite.id ∈ ["NUNEZ, R., 1998, MATH COGNITION".toList, "LIEBER, M., 1990, OTHER".toList] := by decide +kernel
  have hex : ∀ u ∈ ["FAY C.-D., 2003, PHYSICA A".toList, "DEE A., 2001, PHYSICA A".toList], ∀ n ∈ ["NUNEZ, R., 1998, MATH COGNITION".toList, "LIEBER, M., 1990, OTHER".toList],
      ∃ p ∈ file true, lab w (refOf p) = u ∧ ∃ line ∈ refs p, (parseScopus w.chars line).cite.id = n := by decide +kernel
  constructor
  · exact fun hn => ⟨hex _ (by simp) n hn, hex _ (by simp) n hn⟩
  · rintro ⟨⟨p, hp, e, line, hl, rfl⟩, _⟩
    exact hall _ (by simp) p hp e line hl

example := C119_core (W := w) (fun _ => []) List.reverse_perm (file_ok true) texts (referable true) (refs_ok true) ⟨id, fun _ => true, fun _ => 0⟩
  ⟨.full, true, false, .none, true, true, true⟩ rfl
example := C119_citation (W := w) (fun _ => []) List.reverse_perm (file_ok true) texts (referable true) (refs_ok true) ⟨id, fun _ => true, fun _ => 0⟩
  ⟨.full, true, false, .none, true, true, true⟩ rfl true false (.inl rfl)

end Verif.Props.ScopusWhoCites
