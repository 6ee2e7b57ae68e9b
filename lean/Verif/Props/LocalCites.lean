import Verif.Model.LocalCites
import Verif.Props.WhoCites
import Verif.Props.RecordFilters
import Verif.Props.DiffusionCount

/-! # C120: how often the papers of a Web of Science file are cited, and by whom -/
set_option autoImplicit false
set_option linter.unusedSimpArgs false
namespace Verif.Props.LocalCites
open Verif.Py Verif.Model.WosFields Verif.Model.RecordAccess Verif.Model.Pipeline Verif.Model.WhoCites Verif.Model.CiteParse Verif.Spec.Pipeline Verif.Spec.WhoCites Verif.Spec
  Verif.Lemmas.Pipeline Verif.Lemmas.WhoCites Verif.Props.CiteParse Verif.Props.Pipeline Verif.Props.WhoCites
open Verif.Model.LocalCites (withCites createCitations sourceRec targetRec rawFields)

section
variable {W : World} {order : List Model.Wos.Rec → List Model.Wos.Rec} (before : Model.Wos.Rec → List (Op String FVal)) {origin : Str} {papers : List Paper}
  {ref : Paper → Ref}

theorem mapM_works {work : Str → Model.Citation.Cite} (hw : Reads W work) (l : List Str) : l.mapM (fun c => (parseWos W.chars c).map Parsed.cite) = some (l.map work) := by
  induction l with
  | nil => rfl
  | cons c l ih =>
    obtain ⟨q, h1, h2, _⟩ := hw.parsed c
    rw [List.mapM_cons, h1, ih, List.map_cons, ← h2]; rfl

theorem cites_eq {work : Str → Model.Citation.Cite} (hw : Reads W work) {p : Paper} (hp : PaperOk W.ws p) :
    (do return citations W (← value W before "citations" (toRec p)) : Except AErr _) = .ok (cs work p) := by
  have := value_eq W before hp "CR" "citations" "citations" (by unfold TagTable.Wos; decide +kernel) (.inr rfl)
  rw [(WosFields.C69_lines W.prims "AF".toList (by decide) _).2] at this
  rw [this]
  unfold cs
  by_cases hl : linesOf p "CR" = []
  · rw [if_pos hl, if_pos hl]; rfl
  · rw [if_neg hl, if_neg hl]
    show Except.ok (citations W (some (.cites _))) = _
    unfold citations
    dsimp only
    rw [mapM_works hw]

theorem own_eq (hT : Texts W) {work : Str → Model.Citation.Cite} (hw : Reads W work) {p : Paper} (hp : PaperOk W.ws p) {r : Ref}
    (hd : Describes (Str.strip W.prims.ws) r p) (hr : r.Ok) : createCitation W before (toRec p) = .ok (work r.line) := by
  rw [create_line before hT.int hp _ hd hr]
  obtain ⟨q, q1, q2, _⟩ := hw.parsed r.line
  rw [q1, ← q2]

theorem withCites_eq (h : Setting W order) (hf : FileOk W.ws origin papers) (hT : Texts W) (href : Referable W papers ref) {work : Str → Model.Citation.Cite} (hw : Reads W work) :
    withCites W before (order (papers.map toRec)) = .ok ((order (papers.map toRec)).map (fun r => (r, work (ref r.fields).line, cs work r.fields))) := by
  unfold withCites
  apply Lemmas.Pipeline.mapM_ok
  intro r hr
  obtain ⟨h1, h2, h3⟩ := of_order h hf hr
  obtain ⟨d1, d2⟩ := href _ h3
  have ho := own_eq before hT hw h1 d1 d2
  have hc := cites_eq before hw h1
  rw [← h2] at ho hc
  rw [ho]
  cases hv : value W before "citations" r with
  | error e => rw [hv] at hc; cases hc
  | ok v =>
    rw [hv] at hc
    have : citations W v = cs work r.fields := by
      have := Except.ok.inj hc
      exact this
    show Except.ok (r, work (ref r.fields).line, citations W v) = _
    rw [this]

/-- The accession number of a paper. -/
def number (p : Paper) : Str := (linesOf p "UT").headD []

theorem ids_nodup (h : Setting W order) (hf : FileOk W.ws origin papers) : ((order (papers.map toRec)).map (fun r => r.id)).Nodup := by
  refine (((h.perm _).map _).nodup_iff).2 ?_
  rw [List.map_map]
  have e : papers.map (fun p => (linesOf p "UT").head?) = (papers.map (fun p => (toRec p).id)).map some := by
    rw [List.map_map]
    apply List.map_congr_left
    intro p hp
    have := (hf.each p hp).ut
    show (linesOf p "UT").head? = some ((linesOf p "UT").headD [])
    cases hl : linesOf p "UT" with
    | nil => exact absurd hl this
    | cons a l => rfl
  exact List.Nodup.of_map some (e ▸ hf.different)

/-- **C120, who cites a paper.** For a paper of the file, `localCitesOf` with its accession number gives exactly the papers of the file that list a reference which stands for
it (has the hash of its label), each once. -/
theorem C120_citing (h : Setting W order) (hf : FileOk W.ws origin papers) (hT : Texts W) (href : Referable W papers ref) (hash : Str → Int) {p : Paper} (hp : p ∈ papers) :
    ∃ name, Names W name ∧ ∃ l, Model.LocalCites.localCitesOf W before order hash (number p) (fileText origin papers) = some (.ok (.ok l)) ∧
      (l.map (fun r => r.id)).Nodup ∧
      ∀ id, id ∈ l.map (fun r => r.id) ↔ ∃ q ∈ papers, number q = id ∧ ∃ line ∈ linesOf q "CR", hash (name line) = hash (lab W (ref p)) := by
  obtain ⟨work, hw⟩ := reads hT
  refine ⟨_, names_of hw, ?_⟩
  have hlab : ∀ p ∈ papers, (work (ref p).line).id = lab W (ref p) := fun p hp => hw.label _ (href p hp).2
  generalize hcr : (order (papers.map toRec)).map (fun r => (r, work (ref r.fields).line, cs work r.fields)) = crs
  have hids := ids_nodup h hf
  have hids' : (crs.map (fun r => r.1.id)).Nodup := by rw [← hcr, List.map_map]; exact hids
  have hnd : crs.Nodup := List.Nodup.of_map _ hids'
  have hmem : ∀ x, x ∈ crs ↔ ∃ q ∈ papers, x = (toRec q, work (ref q).line, cs work q) := by
    intro x
    rw [← hcr, List.mem_map]
    constructor
    · rintro ⟨r, hr, rfl⟩
      obtain ⟨_, h2, h3⟩ := of_order h hf hr
      exact ⟨r.fields, h3, by rw [← h2]⟩
    · rintro ⟨q, hq, rfl⟩
      exact ⟨toRec q, (h.perm _).mem_iff.2 (List.mem_map_of_mem hq), rfl⟩
  let c : Model.Coll Model.LocalCites.CRec Unit Unit   := Model.Coll.fresh "RecordCollection" crs ""
  have hitems : c.items = crs := by
    show PSet.ofList crs = crs
    exact PSet.ofList_of_nodup hnd
  have h23 := C23_localCitesOf_partial hash (fun r : Model.LocalCites.CRec => r.1.id) (fun r => r.2.1) (fun r => r.2.2) c (by rw [hitems]; exact hids')
    (work (ref p).line) (.string (number p)) (.inr ⟨(toRec p, work (ref p).line, cs work p), by rw [hitems]; exact (hmem _).2 ⟨p, hp, rfl⟩, rfl, rfl⟩)
  obtain ⟨l, l1, l2, l3⟩ := h23
  refine ⟨l.map Prod.fst, ?_, ?_, fun id => ?_⟩
  · unfold Model.LocalCites.localCitesOf
    rw [records_eq W order h.nl h.E hf]
    simp only [Option.map_some]
    rw [withCites_eq before h hf hT href hw, hcr]
    show some (Except.ok (Except.map _ _)) = _
    rw [l1]
    rfl
  · rw [List.map_map]
    refine l2.map_on fun x hx y hy e => List.inj_on_of_nodup_map hids' ?_ ?_ e
    · rw [← hitems]; exact ((l3 x).1 hx).1
    · rw [← hitems]; exact ((l3 y).1 hy).1
  · rw [List.map_map, List.mem_map]
    constructor
    · rintro ⟨x, hx, rfl⟩
      obtain ⟨hx1, d, hd, e⟩ := (l3 x).1 hx
      rw [hitems] at hx1
      obtain ⟨q, hq, rfl⟩ := (hmem x).1 hx1
      dsimp only at hd
      rw [cs_getD] at hd
      obtain ⟨line, hl, rfl⟩ := List.mem_map.1 hd
      exact ⟨q, hq, rfl, line, hl, by rw [← e, hlab p hp]⟩
    · rintro ⟨q, hq, rfl, line, hl, e⟩
      refine ⟨(toRec q, work (ref q).line, cs work q), (l3 _).2 ⟨by rw [hitems]; exact (hmem _).2 ⟨q, hq, rfl⟩, work line, ?_, ?_⟩, rfl⟩
      · dsimp only
        rw [cs_getD]
        exact List.mem_map_of_mem hl
      · rw [hlab p hp, e]

/-- The number of reference lines of the file with a property. -/
def linesWith (papers : List Paper) (P : Str → Prop) [DecidablePred P] : Nat := (papers.map (fun p => (linesOf p "CR").countP (fun line => decide (P line)))).sum

theorem stats_eq (h : Setting W order) (hf : FileOk W.ws origin papers) (hT : Texts W) (href : Referable W papers ref) {work : Str → Model.Citation.Cite} (hw : Reads W work)
    (hash : Str → Int) (verbose : Bool) (kt : Model.RecordFilters.KeyType) (hkt : kt = .citation ∨ kt = .year) :
    ∃ d, Model.LocalCites.localCiteStats W before order hash verbose kt (fileText origin papers) = some (.ok (.ok d)) ∧ Dict.WF d ∧
      (∀ k n, d.get? k = some n ↔ 0 < n ∧ n = linesWith papers (fun line => countedAs hash kt (work line) = some k)) ∧
      (d.map Prod.snd).sum = linesWith papers (fun line => (countedAs hash kt (work line)).isSome = true) := by
  generalize hcr : (order (papers.map toRec)).map (fun r => (r, work (ref r.fields).line, cs work r.fields)) = crs
  have hall : ∀ line, HasKey kt (work line) := by
    intro line
    rcases hkt with rfl | rfl
    · trivial
    · obtain ⟨q, q1, q2, _⟩ := hw.parsed line
      obtain ⟨p', e1, _, _, hy, _⟩ := parse_fields W.chars line
      rw [q1] at e1
      obtain rfl := Option.some.inj e1
      show (work line).year ≠ none
      rw [← q2, hy]
      simp
  obtain ⟨d, d1, d2, d3, d4⟩ := C22_localCiteStats_partial verbose (fun _ => true) hash kt (fun r : Model.LocalCites.CRec => r.2.2) crs (fun _ _ _ => rfl) (by
    intro r hr c hc
    rw [← hcr] at hr
    obtain ⟨x, hx, rfl⟩ := List.mem_map.1 hr
    dsimp only at hc
    rw [cs_getD] at hc
    obtain ⟨line, _, rfl⟩ := List.mem_map.1 hc
    exact hall line)
  have hsum : ∀ P : Model.Citation.Cite → Bool, (crs.map (fun r => ((r.2.2).getD []).countP P)).sum = linesWith papers (fun line => P (work line) = true) := by
    intro P
    rw [← hcr, List.map_map]
    refine Eq.trans ?_ (sum_order (papers := papers) h (fun r => (linesOf r.fields "CR").countP (fun line => decide (P (work line) = true))))
    congr 1
    apply List.map_congr_left
    intro r hr
    simp only [Function.comp]
    rw [cs_getD, List.countP_map]
    apply List.countP_congr
    intro line _
    simp
  refine ⟨d, ?_, d2, fun k n => ?_, ?_⟩
  · unfold Model.LocalCites.localCiteStats
    rw [records_eq W order h.nl h.E hf]
    simp only [Option.map_some]
    rw [withCites_eq before h hf hT href hw, hcr]
    exact congrArg (fun x => some (Except.ok x)) d1
  · rw [d3, hsum]
    unfold linesWith
    simp
  · rw [d4, hsum]

/-- **C120, how often works are cited.** `localCiteStats` has, for each work, the number of reference lines in the file that stand for it, and the numbers add up to the number of
all reference lines. -/
theorem C120_stats (h : Setting W order) (hf : FileOk W.ws origin papers) (hT : Texts W) (href : Referable W papers ref) (hash : Str → Int) (verbose : Bool) :
    ∃ name, Names W name ∧ ∃ d, Model.LocalCites.localCiteStats W before order hash verbose .citation (fileText origin papers) = some (.ok (.ok d)) ∧ Dict.WF d ∧
      (∀ k n, d.get? (.cite k) = some n ↔ 0 < n ∧ n = linesWith papers (fun line => hash (name line) = k)) ∧
      (d.map Prod.snd).sum = (papers.map (fun p => (linesOf p "CR").length)).sum := by
  obtain ⟨work, hw⟩ := reads hT
  obtain ⟨d, d1, d2, d3, d4⟩ := stats_eq before h hf hT href hw hash verbose .citation (.inl rfl)
  refine ⟨_, names_of hw, d, d1, d2, fun k n => ?_, ?_⟩
  · rw [d3]
    unfold linesWith
    simp [countedAs]
  · rw [d4]
    unfold linesWith
    simp [countedAs]

/-- **C120, how old the cited works are.** In a file with well-formed references, `localCiteStats(keyType = 'year')` has for each year the number of references to works of it. -/
theorem C120_years (h : Setting W order) (hf : FileOk W.ws origin papers) (hT : Texts W) (href : Referable W papers ref) (hash : Str → Int) (verbose : Bool)
    (refs : Paper → List Ref) (hrefs : ∀ p ∈ papers, linesOf p "CR" = (refs p).map Ref.line ∧ ∀ r ∈ refs p, r.Ok) :
    ∃ d, Model.LocalCites.localCiteStats W before order hash verbose .year (fileText origin papers) = some (.ok (.ok d)) ∧ Dict.WF d ∧
      ∀ y n : Nat, d.get? (.num y) = some n ↔ 0 < n ∧ n = (papers.map (fun p => (refs p).countP (fun r => decide (r.year = y)))).sum := by
  obtain ⟨work, hw⟩ := reads hT
  obtain ⟨d, d1, d2, d3, d4⟩ := stats_eq before h hf hT href hw hash verbose .year (.inr rfl)
  refine ⟨d, d1, d2, fun y n => ?_⟩
  rw [d3]
  have : linesWith papers (fun line => countedAs hash .year (work line) = some (.num y)) = (papers.map (fun p => (refs p).countP (fun r => decide (r.year = y)))).sum := by
    unfold linesWith
    congr 1
    apply List.map_congr_left
    intro p hp
    rw [(hrefs p hp).1, List.countP_map]
    apply List.countP_congr
    intro r hr
    have hok := (hrefs p hp).2 r hr
    have hyear : (work r.line).year = some (some (r.year : Int)) := by
      obtain ⟨q, q1, q2, _⟩ := hw.parsed r.line
      obtain ⟨q', e1, _, _, e2, _⟩ := read_vals hT.upper (refVals r) r hok (by
          show some (r.author.filter _) = some r.author
          rw [no_filter _ _ hok.noComma.1]) rfl (Or.inl rfl) (present_self r.volume (fun s hs => (hok.volume s hs).1))
        (present_self r.page (fun s hs => (hok.page s hs).1)) (present_self r.doi (fun s hs => (hok.doi s hs).1))
      rw [← line_eq r hok, q1] at e1
      obtain rfl := Option.some.inj e1
      rw [← q2]; exact e2
    simp [Function.comp, countedAs, hyear]
  rw [this]

/-! ## Diffusion from one file to another -/

/-- The reference to a paper with another of its authors. -/
def byAuthor (r : Ref) (a : Str) : Ref := { r with author := a.filter (fun c => c ≠ ',') }

/-- The references under which a paper can be cited: that with its first author, or those with each of its authors. -/
def refsOf (ref : Paper → Ref) (allAuthors : Bool) (p : Paper) : List Ref := if allAuthors then (linesOf p "AU").map (byAuthor (ref p)) else [ref p]

/-- Each of the references under which a paper can be cited can be told into its parts. -/
def AllReferable (W : World) (papers : List Paper) (ref : Paper → Ref) : Prop :=
  ∀ p ∈ papers, Describes (Str.strip W.prims.ws) (ref p) p ∧ ∀ a ∈ linesOf p "AU", (byAuthor (ref p) a).Ok

theorem ref_by {p : Paper} {r : Ref} {strip : Str → Str} (hd : Describes strip r p) : ∃ a l, linesOf p "AU" = a :: l ∧ r = byAuthor r a := by
  have := hd.author
  cases hl : linesOf p "AU" with
  | nil => rw [hl] at this; cases this
  | cons a l =>
    rw [hl] at this
    refine ⟨a, l, rfl, ?_⟩
    unfold byAuthor
    rw [show a.filter (fun c => c ≠ ',') = r.author from Option.some.inj this]

theorem all_referable (href : AllReferable W papers ref) : Referable W papers ref := by
  intro p hp
  obtain ⟨h1, h2⟩ := href p hp
  obtain ⟨a, l, e1, e2⟩ := ref_by h1
  refine ⟨h1, ?_⟩
  rw [e2]
  exact h2 a (by rw [e1]; simp)

theorem createAll_eq (hint : ∀ n : Nat, W.prims.int (showNat n) = some (n : Int)) {p : Paper} (hp : PaperOk W.ws p) (r : Ref) (hd : Describes (Str.strip W.prims.ws) r p) :
    createCitations W before (toRec p) = match (citeStrings (paperVals W p r)).mapM (parseWos W.chars) with
      | some ps => .ok (ps.map Parsed.cite)
      | none => .error .other := by
  have hau : value W before "authorsShort" (toRec p) = .ok (some (.texts (linesOf p "AU"))) := by
    rw [value_eq W before hp "AU" "authorsShort" _ (by unfold TagTable.Wos; decide +kernel) (Or.inr rfl)]
    cases h : linesOf p "AU" with
    | nil => have := hd.author; rw [h] at this; cases this
    | cons a l => rw [if_neg (by simp), (Props.WosFields.C69_lines W.prims "AU".toList (by decide) _).1]; rfl
  have hy : value W before "year" (toRec p) = .ok (some (.num r.year)) := by
    rw [value_eq W before hp "PY" "year" _ (by unfold TagTable.Wos; decide +kernel) (Or.inr rfl)]
    have h3 := hd.year.2.2
    cases h : linesOf p "PY" with
    | nil => rw [h] at h3; cases h3
    | cons a l =>
      rw [h] at h3
      obtain rfl : a = showNat r.year := by simpa using h3
      rw [if_neg (by simp), Props.WosFields.C69_year_digits W.prims hint r.year ⟨hd.year.1, hd.year.2.1⟩]; rfl
  have hj := text_read before hp "J9" "j9" (by unfold TagTable.Wos; decide +kernel) id (fun v rest => (Props.WosFields.C69_first W.prims v rest).1 _ (by decide))
  have hdo := text_read before hp "DI" "DOI" (by unfold TagTable.Wos; decide +kernel) id (fun v rest => (Props.WosFields.C69_first W.prims v rest).1 _ (by decide))
  have hvl := text_read before hp "VL" "volume" (by unfold TagTable.Wos; decide +kernel) (Str.strip W.prims.ws)
    (fun v rest => (Props.WosFields.C69_first W.prims v rest).2 _ (by decide))
  have hbp := text_read before hp "BP" "beginningPage" (by unfold TagTable.Wos; decide +kernel) (Str.strip W.prims.ws)
    (fun v rest => (Props.WosFields.C69_first W.prims v rest).2 _ (by decide))
  have hti : value W before "title" (toRec p) = .ok ((if linesOf p "TI" = [] then none else some (textOf p "TI")).map FVal.text) := by
    rw [value_eq W before hp "TI" "title" _ (by unfold TagTable.Wos; decide +kernel) (Or.inr rfl), Props.WosFields.C69_text W.prims "TI".toList (by decide)]
    split <;> rfl
  rw [Option.map_id] at hj hdo
  unfold createCitations
  rw [hau, hy, hj, hti, hvl, hbp, hdo]
  simp only [bind, Except.bind, names, yearVal, textVal_map, id]
  rfl

theorem all_eq (hT : Texts W) {work : Str → Model.Citation.Cite} (hw : Reads W work) {p : Paper} (hp : PaperOk W.ws p) {r : Ref}
    (hd : Describes (Str.strip W.prims.ws) r p) (hr : ∀ a ∈ linesOf p "AU", (byAuthor r a).Ok) :
    createCitations W before (toRec p) = .ok ((linesOf p "AU").map (fun a => work (byAuthor r a).line)) := by
  have hne : (paperVals W p r).authors ≠ [] := by
    obtain ⟨a, l, e, _⟩ := ref_by hd
    show linesOf p "AU" ≠ []
    rw [e]; simp
  have hs : citeStrings (paperVals W p r) = (linesOf p "AU").map (fun a => (byAuthor r a).line) := by
    rw [C37_multi _ hne]
    apply List.map_congr_left
    intro a ha
    exact string_eq _ (byAuthor r a) (hr a ha) rfl rfl (show JournalIs (paperVals W p r) r.journal from journal_is hd) hd.volume.symm hd.page.symm hd.doi.symm
  rw [createAll_eq before hT.int hp r hd, hs]
  have hm : ∀ l : List Str, ∃ ps, l.mapM (parseWos W.chars) = some ps ∧ ps.map Parsed.cite = l.map work := by
    intro l
    induction l with
    | nil => exact ⟨[], rfl, rfl⟩
    | cons c l ih =>
      obtain ⟨q, h1, h2, _⟩ := hw.parsed c
      obtain ⟨ps, g1, g2⟩ := ih
      refine ⟨q :: ps, ?_, ?_⟩
      · rw [List.mapM_cons, h1, g1]; rfl
      · rw [List.map_cons, List.map_cons, g2, h2]
  obtain ⟨ps, g1, g2⟩ := hm ((linesOf p "AU").map (fun a => (byAuthor r a).line))
  rw [g1]
  dsimp only
  rw [g2, List.map_map]
  rfl

/-- A source as `diffusionCount` sees it. -/
def src (hash : Str → Int) (work : Str → Model.Citation.Cite) (ref : Paper → Ref) (r : Model.Wos.Rec) : Model.Diffusion.Rec Int :=
  ⟨r.id, rawFields r, hash (work (ref r.fields).line).id, (linesOf r.fields "AU").map (fun a => hash (work (byAuthor (ref r.fields) a).line).id), []⟩

/-- A target as `diffusionCount` sees it. -/
def tgt (hash : Str → Int) (work : Str → Model.Citation.Cite) (r : Model.Wos.Rec) : Model.Diffusion.Rec Int :=
  ⟨r.id, rawFields r, 0, [], (linesOf r.fields "CR").map (fun line => hash (work line).id)⟩

theorem sources_eq (h : Setting W order) (hf : FileOk W.ws origin papers) (hT : Texts W) (href : AllReferable W papers ref) {work : Str → Model.Citation.Cite} (hw : Reads W work)
    (hash : Str → Int) : (order (papers.map toRec)).mapM (sourceRec W before hash) = .ok ((order (papers.map toRec)).map (src hash work ref)) := by
  apply Lemmas.Pipeline.mapM_ok
  intro r hr
  obtain ⟨h1, h2, h3⟩ := of_order h hf hr
  obtain ⟨d1, d2⟩ := href _ h3
  have ho := own_eq before hT hw h1 d1 (all_referable href _ h3).2
  have ha := all_eq before hT hw h1 d1 d2
  rw [← h2] at ho ha
  unfold sourceRec
  rw [ho, ha]
  show Except.ok _ = _
  unfold src
  rw [List.map_map]
  rfl

theorem targets_eq (h : Setting W order) (hf : FileOk W.ws origin papers) {work : Str → Model.Citation.Cite} (hw : Reads W work) (hash : Str → Int) :
    (order (papers.map toRec)).mapM (targetRec W before hash) = .ok ((order (papers.map toRec)).map (tgt hash work)) := by
  apply Lemmas.Pipeline.mapM_ok
  intro r hr
  obtain ⟨h1, h2, h3⟩ := of_order h hf hr
  have hc := cites_eq before hw h1
  rw [← h2] at hc
  unfold targetRec
  cases hv : value W before "citations" r with
  | error e => rw [hv] at hc; cases hc
  | ok v =>
    rw [hv] at hc
    have hcv : citations W v = cs work r.fields := Except.ok.inj hc
    show Except.ok _ = _
    unfold tgt
    rw [hcv, cs_getD, List.map_map]
    rfl

theorem sum_unique {α : Type} (id : α → Str) (P : α → Bool) (l : List α) (hn : (l.map id).Nodup) {x : α} (hx : x ∈ l) :
    (l.map (fun s => if P s then (if id s = id x then 1 else 0) else 0)).sum = if P x then 1 else 0 := by
  induction l with
  | nil => cases hx
  | cons a l ih =>
    rw [List.map_cons, List.nodup_cons] at hn
    rw [List.map_cons, List.sum_cons]
    rcases List.mem_cons.1 hx with rfl | hx
    · have : (l.map (fun s => if P s then (if id s = id x then 1 else 0) else 0)).sum = 0 := by
        apply List.sum_eq_zero_iff_forall_eq_nat.2
        intro y hy
        obtain ⟨s, hs, rfl⟩ := List.mem_map.1 hy
        rw [if_neg (fun e => hn.1 (List.mem_map.2 ⟨s, hs, e⟩))]
        simp
      rw [this, if_pos rfl, Nat.add_zero]
    · have hne : id a ≠ id x := fun e => hn.1 (List.mem_map.2 ⟨x, hx, e.symm⟩)
      rw [ih hn.2 hx, if_neg hne]
      simp

open Classical in
/-- **C120, diffusion.** `diffusionCount` of the papers of one file among those of another has exactly the papers of the first file, each with the number of references in the
second that stand for it (under its first author, or under any of its authors), when no two papers of the first file can be cited in the same way. -/
theorem C120_diffusion {origin' : Str} {targets : List Paper} (h : Setting W order) (hf : FileOk W.ws origin papers) (hf' : FileOk W.ws origin' targets) (hT : Texts W)
    (href : AllReferable W papers ref) (hash : Str → Int) (allAuthors : Bool)
    (hshare : ∀ p ∈ papers, ∀ q ∈ papers, p ≠ q → ∀ r ∈ refsOf ref allAuthors p, ∀ r' ∈ refsOf ref allAuthors q, hash (lab W r) ≠ hash (lab W r')) :
    ∃ name, Names W name ∧ ∃ d, Model.LocalCites.diffusionCount W before order hash allAuthors (fileText origin papers) (fileText origin' targets) = some (.ok (.ok d)) ∧ Dict.WF d ∧
      (∀ p ∈ papers, d.get? (.record (number p)) = some (linesWith targets (fun line => ∃ r ∈ refsOf ref allAuthors p, hash (name line) = hash (lab W r)))) ∧
      ∀ k ∈ Dict.keys d, ∃ p ∈ papers, k = .record (number p) := by
  obtain ⟨work, hw⟩ := reads hT
  refine ⟨_, names_of hw, ?_⟩
  generalize hss : (order (papers.map toRec)).map (src hash work ref) = ss
  generalize hts : (order (targets.map toRec)).map (tgt hash work) = ts
  have hmem : ∀ x, x ∈ ss ↔ ∃ p ∈ papers, x = src hash work ref (toRec p) := by
    intro x
    rw [← hss, List.mem_map]
    constructor
    · rintro ⟨r, hr, rfl⟩
      obtain ⟨_, h2, h3⟩ := of_order h hf hr
      exact ⟨r.fields, h3, by rw [← h2]⟩
    · rintro ⟨q, hq, rfl⟩
      exact ⟨toRec q, (h.perm _).mem_iff.2 (List.mem_map_of_mem hq), rfl⟩
  have hcit : ∀ p ∈ papers, ∀ c, c ∈ Spec.Diffusion.citations allAuthors (src hash work ref (toRec p)) ↔ ∃ r ∈ refsOf ref allAuthors p, hash (lab W r) = c := by
    intro p hp c
    unfold Spec.Diffusion.citations refsOf
    cases allAuthors
    · simp only [Bool.false_eq_true, if_false, List.mem_singleton, exists_eq_left]
      rw [← hw.label _ (all_referable href p hp).2]
      exact eq_comm
    · simp only [if_true]
      show c ∈ (linesOf p "AU").map (fun a => hash (work (byAuthor (ref p) a).line).id) ↔ _
      rw [List.mem_map]
      simp only [List.mem_map, exists_exists_and_eq_and]
      constructor
      · rintro ⟨a, ha, e⟩
        exact ⟨a, ha, by rw [← hw.label _ ((href p hp).2 a ha)]; exact e⟩
      · rintro ⟨a, ha, e⟩
        exact ⟨a, ha, by rw [hw.label _ ((href p hp).2 a ha)]; exact e⟩
  have hval : ∀ p ∈ papers, Spec.Diffusion.valueOf .raw (src hash work ref (toRec p)) = some (.record (number p)) := by
    intro p hp
    have hne : rawFields (toRec p) ≠ [] := by
      intro e
      have := (hf.each p hp).ut
      have hp0 : p = [] := List.map_eq_nil_iff.1 e
      rw [hp0] at this
      exact this rfl
    show (if rawFields (toRec p) = [] then none else some _) = _
    rw [if_neg hne]
    rfl
  have hsids : (ss.map (fun s => s.id)).Nodup := by
    rw [← hss, List.map_map]
    exact ids_nodup h hf
  have hsame : ∀ p ∈ papers, ∀ q ∈ papers, ∀ c, c ∈ Spec.Diffusion.citations allAuthors (src hash work ref (toRec p)) →
      c ∈ Spec.Diffusion.citations allAuthors (src hash work ref (toRec q)) → p = q := by
    intro p hp q hq c h1 h2
    by_contra hpq
    obtain ⟨r, hr, rfl⟩ := (hcit p hp c).1 h1
    obtain ⟨r', hr', e⟩ := (hcit q hq _).1 h2
    exact hshare p hp q hq hpq r hr r' hr' e.symm
  have hno : Spec.Diffusion.NoShared allAuthors .raw ss := by
    unfold Spec.Diffusion.NoShared
    refine (List.Nodup.of_map _ hsids).imp_of_mem ?_
    intro a b ha hb hab _ _ c hc1 hc2
    obtain ⟨p, hp, rfl⟩ := (hmem a).1 ha
    obtain ⟨q, hq, rfl⟩ := (hmem b).1 hb
    exact hab (by rw [hsame p hp q hq c hc1 hc2])
  obtain ⟨d, d1, d2, d3⟩ := Verif.Props.DiffusionCount.C45_count allAuthors .raw ss ts trivial
  have d4 := Verif.Props.DiffusionCount.C45_pairs_partial allAuthors .raw ss ts trivial hno d d1
  have hfor : ∀ c v, Spec.Diffusion.sourceFor allAuthors .raw ss c = some v → ∃ p ∈ papers, c ∈ Spec.Diffusion.citations allAuthors (src hash work ref (toRec p)) ∧
      v = .record (number p) := by
    intro c v hv
    unfold Spec.Diffusion.sourceFor at hv
    obtain ⟨s, hs, e⟩ := List.exists_of_findSome?_eq_some hv
    obtain ⟨p, hp, rfl⟩ := (hmem s).1 (List.mem_reverse.1 hs)
    split at e
    · rename_i hc
      rw [hval p hp] at e
      exact ⟨p, hp, hc, (Option.some.inj e).symm⟩
    · cases e
  have hlisted : ∀ p ∈ papers, Spec.Diffusion.Listed allAuthors .raw ss (.record (number p)) := by
    intro p hp
    obtain ⟨r, hr⟩ : ∃ r, r ∈ refsOf ref allAuthors p := by
      unfold refsOf
      cases allAuthors
      · exact ⟨ref p, by simp⟩
      · obtain ⟨a, l, e, _⟩ := ref_by (href p hp).1
        exact ⟨byAuthor (ref p) a, by simp [e]⟩
    have hc := (hcit p hp _).2 ⟨r, hr, rfl⟩
    cases hv : Spec.Diffusion.sourceFor allAuthors .raw ss (hash (lab W r)) with
    | none =>
      unfold Spec.Diffusion.sourceFor at hv
      rw [List.findSome?_eq_none_iff] at hv
      have := hv _ (List.mem_reverse.2 ((hmem _).2 ⟨p, hp, rfl⟩))
      rw [if_pos hc, hval p hp] at this
      cases this
    | some v =>
      obtain ⟨q, hq, hc2, rfl⟩ := hfor _ _ hv
      refine ⟨_, _, hv, ?_⟩
      rw [hsame p hp q hq _ hc hc2]
      simp [Spec.Diffusion.elements]
  have hpairs : ∀ p ∈ papers, Spec.Diffusion.pairsFor allAuthors .raw ss ts (.record (number p)) =
      linesWith targets (fun line => ∃ r ∈ refsOf ref allAuthors p, hash (work line).id = hash (lab W r)) := by
    intro p hp
    unfold Spec.Diffusion.pairsFor linesWith
    rw [← hts, List.map_map]
    refine Eq.trans ?_ (sum_order (papers := targets) h (fun t => (linesOf t.fields "CR").countP (fun line =>
      decide (∃ r ∈ refsOf ref allAuthors p, hash (work line).id = hash (lab W r)))))
    congr 1
    apply List.map_congr_left
    intro t _
    have hin : ∀ c, (ss.map (fun s => if c ∈ Spec.Diffusion.citations allAuthors s then
        (match Spec.Diffusion.valueOf Model.Diffusion.NodeType.raw s with
          | none => 0
          | some v => (Spec.Diffusion.elements v).count (.record (number p))) else 0)).sum =
        if ∃ r ∈ refsOf ref allAuthors p, hash (lab W r) = c then 1 else 0 := by
      intro c
      have hs := sum_unique (fun s : Model.Diffusion.Rec Int => s.id) (fun s => decide (c ∈ Spec.Diffusion.citations allAuthors s)) ss hsids ((hmem _).2 ⟨p, hp, rfl⟩)
      simp only [decide_eq_true_eq] at hs
      rw [if_congr (hcit p hp c) rfl rfl] at hs
      refine Eq.trans ?_ hs
      congr 1
      apply List.map_congr_left
      intro s hs
      obtain ⟨q, hq, rfl⟩ := (hmem s).1 hs
      rw [hval q hq]
      dsimp only
      refine if_congr Iff.rfl ?_ rfl
      show List.count _ [_] = _
      rw [List.count_singleton]
      show _ = if number q = number p then 1 else 0
      refine if_congr ?_ rfl rfl
      simp
    show ((tgt hash work t).cr.map _).sum = _
    refine Eq.trans (congrArg List.sum (List.map_congr_left (fun c _ => (?_ : _ = if ∃ r ∈ refsOf ref allAuthors p, hash (lab W r) = c then 1 else 0)))) ?_
    · refine Eq.trans ?_ (hin c)
      congr 1
      apply List.map_congr_left
      intro s _
      refine if_congr Iff.rfl ?_ rfl
      cases Spec.Diffusion.valueOf Model.Diffusion.NodeType.raw s <;> rfl
    unfold tgt
    rw [List.map_map]
    induction linesOf t.fields "CR" with
    | nil => rfl
    | cons line l ih =>
      rw [List.map_cons, List.sum_cons, List.countP_cons, ih, Nat.add_comm]
      congr 1
      simp only [Function.comp, decide_eq_true_eq]
      exact if_congr (by simp only [eq_comm]) rfl rfl
  refine ⟨d, ?_, d2, fun p hp => ?_, fun k hk => ?_⟩
  · unfold Model.LocalCites.diffusionCount
    rw [records_eq W order h.nl h.E hf, records_eq W order h.nl h.E hf']
    show some (Except.bind _ _) = _
    rw [sources_eq before h hf hT href hw hash, targets_eq before h hf' hw hash, hss, hts]
    exact congrArg (fun x => some (Except.ok x)) d1
  · have := d4 (.record (number p))
    rw [hpairs p hp] at this
    rw [d3, if_pos (hlisted p hp)] at this ⊢
    exact congrArg some this
  · have hk' : d.get? k ≠ none := fun e => (Dict.get?_eq_none_iff d k).1 e hk
    rw [d3] at hk'
    by_cases hl : Spec.Diffusion.Listed allAuthors .raw ss k
    · obtain ⟨c, v, hv, hkv⟩ := hl
      obtain ⟨p, hp, _, rfl⟩ := hfor c v hv
      exact ⟨p, hp, by simpa [Spec.Diffusion.elements] using hkv⟩
    · rw [if_neg hl] at hk'
      exact absurd rfl hk'

end

/-! ## The file of the second paper and the third citing the first -/

open Verif.Props.WhoCites (refOf nunez dee fay listed listed_ok cy again texts referable)

theorem all_ref : AllReferable w WhoCites.file refOf := by
  intro p hp
  refine ⟨(referable p hp).1, ?_⟩
  simp only [WhoCites.file, List.mem_cons, List.not_mem_nil, or_false] at hp
  rcases hp with rfl | rfl | rfl
  · intro a ha
    obtain rfl : a = "Nunez, R.".toList := by
      have he : linesOf WhoCites.file[0] "AU" = ["Nunez, R.".toList] := by decide +kernel
      have ha' : a ∈ linesOf WhoCites.file[0] "AU" := ha
      rw [he] at ha'
      exact List.mem_singleton.1 ha'
    exact ⟨⟨'N', 'u', _, rfl, by decide⟩, by decide +kernel, by decide +kernel, by decide +kernel, by decide +kernel, by decide +kernel, by decide +kernel⟩
  · intro a ha
    have : a = "Dee, A".toList ∨ a = "Eve, B".toList := by
      have he : linesOf WhoCites.file[1] "AU" = ["Dee, A".toList, "Eve, B".toList] := by decide +kernel
      have ha' : a ∈ linesOf WhoCites.file[1] "AU" := ha
      rw [he] at ha'
      simpa using ha'
    rcases this with rfl | rfl
    · exact ⟨⟨'D', 'e', _, rfl, by decide⟩, by decide +kernel, by decide +kernel, by decide +kernel, by decide +kernel, by decide +kernel, by decide +kernel⟩
    · exact ⟨⟨'E', 'v', _, rfl, by decide⟩, by decide +kernel, by decide +kernel, by decide +kernel, by decide +kernel, by decide +kernel, by decide +kernel⟩
  · intro a ha
    obtain rfl : a = "Fay, C".toList := by
      have he : linesOf WhoCites.file[2] "AU" = ["Fay, C".toList] := by decide +kernel
      have ha' : a ∈ linesOf WhoCites.file[2] "AU" := ha
      rw [he] at ha'
      exact List.mem_singleton.1 ha'
    exact ⟨⟨'F', 'a', _, rfl, by decide⟩, by decide +kernel, by decide +kernel, by decide +kernel, by decide +kernel, by decide +kernel, by decide +kernel⟩

/-- A hash of texts. -/
def hsh (s : Str) : Int := (s.foldl (fun n c => n * 1114112 + c.toNat + 1) 0 : Nat)

theorem lines_file (P : Str → Prop) [DecidablePred P] : linesWith WhoCites.file P =
    (if P "Nunez R, 1998, Math Cognition, V4".toList then 1 else 0) + (if P "Cy X, 1990, Y".toList then 1 else 0) +
      (if P "Nunez R, 1998, MATH COGNITION, V4, P85".toList then 1 else 0) := by
  have h0 : linesOf WhoCites.file[0] "CR" = [] := by decide +kernel
  have h1 : linesOf WhoCites.file[1] "CR" = ["Nunez R, 1998, Math Cognition, V4".toList, "Cy X, 1990, Y".toList] := by decide +kernel
  have h2 : linesOf WhoCites.file[2] "CR" = ["Nunez R, 1998, MATH COGNITION, V4, P85".toList] := by decide +kernel
  unfold linesWith
  rw [show WhoCites.file = [WhoCites.file[0], WhoCites.file[1], WhoCites.file[2]] from rfl]
  simp only [List.map_cons, List.map_nil]
  rw [h0, h1, h2]
  simp only [List.countP_cons, List.countP_nil, decide_eq_true_eq, List.sum_cons, List.sum_nil]
  omega

theorem names_file {name : Str → Str} (hn : Names w name) : name "Nunez R, 1998, Math Cognition, V4".toList = "Nunez R, 1998, MATH COGNITION".toList ∧
    name "Cy X, 1990, Y".toList = "Cy X, 1990, Y".toList ∧ name "Nunez R, 1998, MATH COGNITION, V4, P85".toList = "Nunez R, 1998, MATH COGNITION".toList :=
  ⟨(congrArg name (by decide +kernel)).trans ((hn.label listed listed_ok).trans (by decide +kernel)),
    (congrArg name (by decide +kernel)).trans ((hn.label cy ⟨⟨'C', 'y', _, rfl, by decide⟩, by decide, by decide, by decide, by decide, by decide, by decide⟩).trans (by decide +kernel)),
    (congrArg name (by decide +kernel)).trans ((hn.label again ⟨⟨'N', 'u', _, rfl, by decide⟩, by decide, by decide, by decide, by decide, by decide, by decide⟩).trans (by decide +kernel))⟩

/-- The first paper is cited by the other two, and not by itself. -/
example : ∃ l, Model.LocalCites.localCitesOf w (fun _ => [.item "year"]) List.reverse hsh "WOS:1".toList (fileText "FN Clarivate".toList WhoCites.file) = some (.ok (.ok l)) ∧
    "WOS:2".toList ∈ l.map (fun r => r.id) ∧ "WOS:3".toList ∈ l.map (fun r => r.id) ∧ "WOS:1".toList ∉ l.map (fun r => r.id) := by
  obtain ⟨name, hn, l, h1, _, h3⟩ := C120_citing (fun _ => [.item "year"]) setting WhoCites.file_ok texts referable hsh (p := WhoCites.file[0]) (List.getElem_mem _)
  obtain ⟨e1, _, e3⟩ := names_file hn
  have el : lab w (refOf WhoCites.file[0]) = "Nunez R, 1998, MATH COGNITION".toList := by decide +kernel
  refine ⟨l, h1, (h3 _).2 ⟨WhoCites.file[1], List.getElem_mem _, by decide +kernel, "Nunez R, 1998, Math Cognition, V4".toList, by decide +kernel, by rw [e1, el]⟩,
    (h3 _).2 ⟨WhoCites.file[2], List.getElem_mem _, by decide +kernel, "Nunez R, 1998, MATH COGNITION, V4, P85".toList, by decide +kernel, by rw [e3, el]⟩, fun h => ?_⟩
  obtain ⟨q, hq, hnum, line, hl, _⟩ := (h3 _).1 h
  simp only [WhoCites.file, List.mem_cons, List.not_mem_nil, or_false] at hq
  rcases hq with rfl | rfl | rfl
  · exact absurd hl (by rw [show linesOf _ "CR" = [] by decide +kernel]; simp)
  · exact absurd hnum (by decide +kernel)
  · exact absurd hnum (by decide +kernel)

/-- It is cited twice, in two ways. -/
example : ∃ d, Model.LocalCites.localCiteStats w (fun _ => []) List.reverse hsh true .citation (fileText "FN Clarivate".toList WhoCites.file) = some (.ok (.ok d)) ∧
    d.get? (.cite (hsh "Nunez R, 1998, MATH COGNITION".toList)) = some 2 ∧ (d.map Prod.snd).sum = 3 := by
  obtain ⟨name, hn, d, h1, _, h3, h4⟩ := C120_stats (fun _ => []) setting WhoCites.file_ok texts referable hsh true
  obtain ⟨e1, e2, e3⟩ := names_file hn
  refine ⟨d, h1, (h3 _ _).2 ⟨by decide, ?_⟩, h4.trans (by decide +kernel)⟩
  rw [lines_file, e1, e2, e3]
  decide +kernel

def refsIn (p : Paper) : List Ref := if firstOf p "PY" = some "1998".toList then [] else if firstOf p "PY" = some "2001".toList then [listed, cy] else [again]

/-- Two of the three references are to a work of 1998. -/
example : ∃ d, Model.LocalCites.localCiteStats w (fun _ => []) List.reverse hsh true .year (fileText "FN Clarivate".toList WhoCites.file) = some (.ok (.ok d)) ∧
    d.get? (.num 1998) = some 2 := by
  obtain ⟨d, h1, _, h3⟩ := C120_years (fun _ => []) setting WhoCites.file_ok texts referable hsh true refsIn (by
    intro p hp
    have hcy : cy.Ok := ⟨⟨'C', 'y', _, rfl, by decide⟩, by decide, by decide, by decide, by decide, by decide, by decide⟩
    have hag : again.Ok := ⟨⟨'N', 'u', _, rfl, by decide⟩, by decide, by decide, by decide, by decide, by decide, by decide⟩
    simp only [WhoCites.file, List.mem_cons, List.not_mem_nil, or_false] at hp
    rcases hp with rfl | rfl | rfl
    · exact ⟨by decide +kernel, fun r hr => by cases hr⟩
    · refine ⟨by decide +kernel, fun r hr => ?_⟩
      have hr' : r ∈ [listed, cy] := hr
      rcases List.mem_cons.1 hr' with rfl | hr'
      · exact listed_ok
      · rw [List.mem_singleton.1 hr']; exact hcy
    · refine ⟨by decide +kernel, fun r hr => ?_⟩
      have hr' : r ∈ [again] := hr
      rw [List.mem_singleton.1 hr']; exact hag)
  exact ⟨d, h1, (h3 1998 2).2 ⟨by decide, by decide +kernel⟩⟩

/-- Within the file the first paper is used twice and the second never. -/
example : ∃ d, Model.LocalCites.diffusionCount w (fun _ => []) List.reverse hsh true (fileText "FN Clarivate".toList WhoCites.file) (fileText "FN Clarivate".toList WhoCites.file) =
    some (.ok (.ok d)) ∧ d.get? (.record "WOS:1".toList) = some 2 ∧ d.get? (.record "WOS:2".toList) = some 0 := by
  obtain ⟨name, hn, d, h1, _, h3, _⟩ := C120_diffusion (fun _ => []) setting WhoCites.file_ok WhoCites.file_ok texts all_ref hsh true (by
    have hall : ∀ p ∈ WhoCites.file, ∀ q ∈ WhoCites.file, p ≠ q → ∀ x ∈ (refsOf refOf true p).map (fun r => hsh (lab w r)), ∀ y ∈ (refsOf refOf true q).map (fun r => hsh (lab w r)),
        x ≠ y := by decide +kernel
    intro p hp q hq hpq r hr r' hr'
    exact hall p hp q hq hpq _ (List.mem_map_of_mem hr) _ (List.mem_map_of_mem hr'))
  obtain ⟨e1, e2, e3⟩ := names_file hn
  have m0 : ∀ c, (∃ r ∈ refsOf refOf true WhoCites.file[0], c = hsh (lab w r)) ↔ c ∈ (refsOf refOf true WhoCites.file[0]).map (fun r => hsh (lab w r)) := by
    intro c; simp [eq_comm]
  have m1 : ∀ c, (∃ r ∈ refsOf refOf true WhoCites.file[1], c = hsh (lab w r)) ↔ c ∈ (refsOf refOf true WhoCites.file[1]).map (fun r => hsh (lab w r)) := by
    intro c; simp [eq_comm]
  refine ⟨d, h1, ?_, ?_⟩
  · have := h3 WhoCites.file[0] (List.getElem_mem _)
    rw [lines_file, e1, e2, e3, if_congr (m0 _) rfl rfl, if_congr (m0 _) rfl rfl, if_pos (by decide +kernel), if_neg (by decide +kernel)] at this
    exact this
  · have := h3 WhoCites.file[1] (List.getElem_mem _)
    rw [lines_file, e1, e2, e3, if_congr (m1 _) rfl rfl, if_congr (m1 _) rfl rfl, if_neg (by decide +kernel), if_neg (by decide +kernel)] at this
    exact this

end Verif.Props.LocalCites
