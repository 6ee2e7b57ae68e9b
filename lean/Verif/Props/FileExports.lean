import Verif.Spec.FileExports
import Verif.Spec.WriteCsv
import Verif.Spec.Words
import Verif.Model.FileExports
import Verif.Lemmas.WosMeaning
import Verif.Props.FileTables
import Verif.Props.WriteCsv
import Verif.Props.Tables
import Verif.Props.TagNames
import Verif.Props.Words

/-! # C125: from a Web of Science file to a csv file and to the words of `forBurst` -/
set_option autoImplicit false
set_option linter.unusedSimpArgs false
namespace Verif.Props.FileExports
open Verif.Py Verif.Model.WosFields Verif.Model.RecordAccess Verif.Model.Pipeline Verif.Model.FileExports Verif.Spec.Pipeline Verif.Spec.WhoCites Verif.Spec.Derived
  Verif.Spec.FileTables Verif.Spec.FileExports Verif.Spec Verif.Lemmas.Pipeline Verif.Props.Pipeline Verif.Props.FileTables
open Verif.Spec.WriteCsv (added)
open Verif.Spec.WosMeaning (shown)

section
variable {W : World} {order : List Model.Wos.Rec → List Model.Wos.Rec} (before : Model.Wos.Rec → List (Op String FVal)) {origin : Str} {papers : List Paper}

theorem burstText_eq (v : FVal) : burstText v = shown [' '] v := by
  cases v <;> first | rfl | exact WosFields.join_eq _ _

theorem valueText_eq (sep : Str) (v : FVal) : Spec.WriteCsv.valueText sep (some (csvVal v)) = shown sep v := by
  cases v <;> simp [csvVal, Spec.WriteCsv.valueText, shown, Function.comp_def]

theorem text_value (h : Setting W order) (hf : FileOk W.ws origin papers) (hint : ∀ n : Nat, W.prims.int (showNat n) = some (n : Int)) {sep : Str} {k : String}
    {text : Paper → Option Str} (ht : Texts W.prims papers sep k text) {r : Model.Wos.Rec} (hr : r ∈ order (papers.map toRec)) :
    ∃ v, value W before k r = .ok v ∧ v.map (shown sep) = text r.fields := by
  obtain ⟨h1, h2, h3⟩ := of_order h hf hr
  obtain ⟨tag, long, hw, hk, hall⟩ := ht.have_text
  obtain ⟨t1, t2⟩ := hall _ h3
  have hv := value_eq W before h1 tag long k hw hk
  rw [← h2] at hv
  rw [hv]
  cases hx : text r.fields with
  | none => rw [if_pos (t1.1 hx)]; exact ⟨none, rfl, rfl⟩
  | some s =>
    have hl : linesOf r.fields tag ≠ [] := fun e => by rw [t1.2 e] at hx; cases hx
    rw [if_neg hl]
    obtain ⟨v, m1, m2⟩ := t2 s hx
    rw [Lemmas.WosMeaning.means_value hint m1]
    exact ⟨some v, rfl, by rw [Option.map_some, m2]⟩

/-! ## The words of `forBurst` -/

/-- **C125, words by year.** The rows of `forBurst` on a file: a year comes with a word as often as the papers of that year have the word in their text. The words are those of
the text, in lower case and rid of numbers and other characters as the options say, and given to the stemmer. -/
theorem C125_burst (h : Setting W order) (hf : FileOk W.ws origin papers) (hint : ∀ n : Nat, W.prims.int (showNat n) = some (n : Int)) (hy : YearsOk papers)
    {k : String} {text : Paper → Option Str} (ht : Texts W.prims papers [' '] k text) (ch : Model.Tables.Chars) (hsp : ch.space ' ' = true) (hlow : Words.WordByWord ch.lower)
    (lo n nw cp : Bool) (st : Option (Str → Str)) {words : Paper → List Str}
    (hwords : ∀ p ∈ papers, (text p = none → words p = []) ∧ ∀ s, text p = some s → Words.Words ch.space s (words p)) :
    ∃ out, Model.FileExports.burst W before order ch ⟨none, lo, n, nw, true, cp, st⟩ k (fileText origin papers) = some (.ok out) ∧ out.1.length = out.2.length ∧
      (∀ row ∈ out.1.zip out.2, ∃ y : Nat, row.1 = .num y) ∧
      ∀ (y : Nat) (w : Str) (c : Paper → Nat), (∀ p ∈ papers, OfYear p y → c p =
          ((words p).map (fun w => st.elim id id (Words.cleaned ch.digit ch.word n nw (if lo then ch.lower w else w)))).count w) →
        (∀ p ∈ papers, ¬ OfYear p y → c p = 0) → (out.1.zip out.2).count (FVal.num y, w) = (papers.map c).sum := by
  have hread : (order (papers.map toRec)).mapM (burstRead W before k) = .ok ((order (papers.map toRec)).map (fun r =>
      ((yr r.fields).map (fun y : Nat => FVal.num (y : Int)), (yr r.fields).bind (fun _ => text r.fields)))) := by
    apply Lemmas.Pipeline.mapM_ok
    intro r hr
    obtain ⟨v, e1, e2⟩ := text_value before h hf hint ht hr
    unfold burstRead
    rw [year_value before h hf hint hy hr]
    cases yr r.fields with
    | none => rfl
    | some y =>
      show ((value W before k r).bind _ : Except AErr _) = _
      rw [e1]
      show Except.ok _ = Except.ok _
      simp only [Option.map_some, Option.bind_some]
      rw [← e2]
      congr 3
      funext x; exact burstText_eq x
  unfold Model.FileExports.burst
  rw [records_eq W order h.nl h.E hf]
  simp only [Option.map_some]
  rw [hread]
  obtain ⟨r1, r2⟩ := Verif.Props.C57_rows ch ⟨none, lo, n, nw, true, cp, st⟩ ⟨Prod.fst, Prod.snd⟩ ((order (papers.map toRec)).map (fun r =>
      ((yr r.fields).map (fun y : Nat => FVal.num (y : Int)), (yr r.fields).bind (fun _ => text r.fields))))
  refine ⟨_, rfl, r1, ?_, ?_⟩
  · intro row hrow
    rw [r2, List.flatMap_map, List.mem_flatMap] at hrow
    obtain ⟨r, _, hrow⟩ := hrow
    dsimp only at hrow
    cases hyr : yr r.fields with
    | none => rw [hyr] at hrow; simp at hrow
    | some y =>
      rw [hyr] at hrow
      cases hx : text r.fields with
      | none => rw [hx] at hrow; simp at hrow
      | some s =>
        rw [hx] at hrow
        simp only [Option.map_some, Option.bind_some, List.mem_map] at hrow
        obtain ⟨_, _, rfl⟩ := hrow
        exact ⟨y, rfl⟩
  · intro y w c hc hc0
    rw [r2, List.flatMap_map, List.count_flatMap]
    refine Eq.trans ?_ (sum_order (papers := papers) h (fun r => c r.fields))
    congr 1
    apply List.map_congr_left
    intro r hr
    have h3 := (of_order h hf hr).2.2
    dsimp only [Function.comp]
    cases hyr : yr r.fields with
    | none =>
      rw [hc0 _ h3 (fun e => by rw [yr_iff.2 e] at hyr; cases hyr)]
      simp
    | some z =>
      cases hx : text r.fields with
      | none =>
        simp only [Option.map_some, Option.bind_some, List.count_nil]
        by_cases ho : OfYear r.fields y
        · rw [hc _ h3 ho, (hwords _ h3).1 hx]; simp
        · rw [hc0 _ h3 ho]
      | some s =>
        simp only [Option.map_some, Option.bind_some]
        rw [Verif.Props.Words.C57_words_exact ch hsp hlow lo n nw cp st s _ ((hwords _ h3).2 s hx)]
        by_cases ho : OfYear r.fields y
        · obtain rfl : z = y := year_unique (yr_iff.1 hyr) ho
          rw [hc _ h3 ho, List.count_map_of_injective _ _ (fun a b e => by simpa using e)]
        · rw [hc0 _ h3 ho, List.count_eq_zero]
          intro hm
          obtain ⟨_, _, e⟩ := List.mem_map.1 hm
          injection e with e _
          injection e with e
          exact ho ((Int.ofNat.inj e) ▸ yr_iff.1 hyr)

/-! ## Csv files -/

theorem table : ∀ c ∈ TagTable.wos.map (fun p => (p.1.toList, p.2.toList)), Model.TagNames.fullToTag.get? c.2 = some c.1 ∧ Model.TagNames.fullToTag.get? c.1 = none ∧
    Model.TagNames.wosTags.get? c.1 = some c.2 ∧ c.1 ≠ "num-Authors".toList ∧ c.2 ≠ "num-Authors".toList ∧ c.1 ≠ [] ∧ c.2 ≠ [] := by decide +kernel

theorem columns (o : Model.WriteCsv.Opts) {cols : List (Str × Str)} (hne : cols ≠ []) (hcols : ∀ c ∈ cols, TagTable.Wos c.1 c.2) {only : List Str}
    (ho : o.onlyTheseTags = some only) (honly : List.Forall₂ (fun t c => t = c.1 ∨ t = c.2) only cols) (keys : Model.Wos.Rec → List Str) (rs : List Model.Wos.Rec) :
    ∃ names, (if o.longNames then (Spec.WriteCsv.wanted (Model.TagNames.fullToTag.get? ·) o keys rs).mapM (Model.TagNames.wosTags.get? ·) = some names
        else names = Spec.WriteCsv.wanted (Model.TagNames.fullToTag.get? ·) o keys rs) ∧
      (∀ t, t ∈ names ↔ ∃ c ∈ cols, t = head o.longNames c) ∧ (o.firstTags = some [] → names = cols.map (head o.longNames)) := by
  have hmap : only.map (fun t => (Model.TagNames.fullToTag.get? t).getD t) = cols.map Prod.fst := by
    clear hne ho
    induction honly with
    | nil => rfl
    | @cons t c only cols h1 _ ih =>
      obtain ⟨a, b, _⟩ := table c (hcols c (by simp))
      rw [List.map_cons, List.map_cons, ih (fun c hc => hcols c (List.mem_cons_of_mem _ hc))]
      rcases h1 with rfl | rfl
      · rw [b]; rfl
      · rw [a]; rfl
  have hne' : only ≠ [] := fun e => by subst e; cases honly; exact hne rfl
  have hmem : ∀ t, t ∈ Spec.WriteCsv.wanted (Model.TagNames.fullToTag.get? ·) o keys rs ↔ t ∈ cols.map Prod.fst := by
    intro t
    rw [WriteCsv.C61_selected (Model.TagNames.fullToTag.get? ·) o keys rs only hne' ho t, ← hmap, List.mem_map]
    exact ⟨fun ⟨s, h1, h2⟩ => ⟨s, h1, h2.symm⟩, fun ⟨s, h1, h2⟩ => ⟨s, h1, h2.symm⟩⟩
  have hexact : o.firstTags = some [] → Spec.WriteCsv.wanted (Model.TagNames.fullToTag.get? ·) o keys rs = cols.map Prod.fst := by
    intro e
    unfold Spec.WriteCsv.wanted
    rw [e, ho]
    cases only with
    | nil => exact absurd rfl hne'
    | cons t ts =>
      dsimp only [Option.getD_some, List.map_nil, List.filter_nil, List.nil_append]
      rw [hmap]
      exact List.filter_eq_self.2 (fun a _ => by simp)
  cases hlong : o.longNames with
  | false =>
    refine ⟨_, rfl, fun t => ?_, fun e => ?_⟩
    · rw [hmem, List.mem_map]
      exact ⟨fun ⟨c, h1, h2⟩ => ⟨c, h1, h2.symm⟩, fun ⟨c, h1, h2⟩ => ⟨c, h1, h2.symm⟩⟩
    · rw [hexact e]; rfl
  | true =>
    have hm : ∀ l : List Str, (∀ t ∈ l, t ∈ cols.map Prod.fst) → l.mapM (Model.TagNames.wosTags.get? ·) = some (l.map (fun t => (Model.TagNames.wosTags.get? t).getD [])) := by
      intro l
      induction l with
      | nil => intro _; rfl
      | cons t l ih =>
        intro hl
        obtain ⟨c, hc, rfl⟩ := List.mem_map.1 (hl t (by simp))
        rw [List.mapM_cons, ih (fun t ht => hl t (List.mem_cons_of_mem _ ht)), (table c (hcols c hc)).2.2.1, List.map_cons, (table c (hcols c hc)).2.2.1]
        rfl
    refine ⟨_, hm _ (fun t ht => (hmem t).1 ht), fun t => ?_, fun e => ?_⟩
    · simp only [List.mem_map, hmem]
      constructor
      · rintro ⟨a, ⟨c, hc, rfl⟩, rfl⟩
        refine ⟨c, hc, ?_⟩
        rw [(table c (hcols c hc)).2.2.1]; rfl
      · rintro ⟨c, hc, rfl⟩
        refine ⟨c.1, ⟨c, hc, rfl⟩, ?_⟩
        rw [(table c (hcols c hc)).2.2.1]; rfl
    · rw [hexact e, List.map_map]
      apply List.map_congr_left
      intro c hc
      simp only [Function.comp]
      rw [(table c (hcols c hc)).2.2.1]; rfl

theorem authors_read (h : Setting W order) (hf : FileOk W.ws origin papers) {r : Model.Wos.Rec} (hr : r ∈ order (papers.map toRec)) :
    value W before "authorsShort" r = .ok (if linesOf r.fields "AU" = [] then none else some (.texts (linesOf r.fields "AU"))) := by
  obtain ⟨h1, h2, _⟩ := of_order h hf hr
  have := lines_value before h1 "AU" "authorsShort" "authorsShort" (by unfold TagTable.Wos; decide +kernel) (.inr rfl) (by decide)
  rwa [← h2] at this

variable (genders : Model.Wos.Rec → Nat × Nat × Nat)

theorem get_eq {k : Str} {r : Model.Wos.Rec} {v : Option FVal} (hv : value W before (String.ofList k) r = .ok v) :
    (view W before genders).get r k = v.map csvVal := by
  show (match value W before (String.ofList k) r with | .ok (some v) => some (csvVal v) | _ => none) = _
  rw [hv]
  cases v <;> rfl

theorem row_eq (h : Setting W order) (hf : FileOk W.ws origin papers) (hint : ∀ n : Nat, W.prims.int (showNat n) = some (n : Int)) (o : Model.WriteCsv.Opts)
    (hg : o.genderCounts = false) {names : List Str} (hna : "num-Authors".toList ∉ names) {cell : Str → Paper → Option Str}
    (hc : ∀ t ∈ names, Texts W.prims papers o.listDelimiter (String.ofList t) (cell t)) {r : Model.Wos.Rec} (hr : r ∈ order (papers.map toRec)) :
    (names ++ added o).map (Spec.WriteCsv.cellText (view W before genders) o r) = row o.numAuthors names cell r.fields := by
  have hadd : added o = if o.numAuthors then ["num-Authors".toList] else [] := by
    unfold added; rw [hg]; exact List.append_nil _
  unfold row
  rw [List.map_append]
  congr 1
  · apply List.map_congr_left
    intro t ht
    have hnot : t ∉ added o := by
      rw [hadd]
      split
      · rw [List.mem_singleton]; rintro rfl; exact hna ht
      · simp
    obtain ⟨v, e1, e2⟩ := text_value before h hf hint (hc t ht) hr
    unfold Spec.WriteCsv.cellText
    rw [if_neg hnot, get_eq before genders e1, ← e2]
    cases v with
    | none => rfl
    | some v => exact valueText_eq _ v
  · rw [hadd]
    cases hn : o.numAuthors with
    | false => rfl
    | true =>
      rw [if_pos rfl, if_pos rfl, List.map_singleton]
      congr 1
      unfold Spec.WriteCsv.cellText
      rw [if_pos (by rw [hadd, hn, if_pos rfl]; exact List.mem_singleton.2 rfl), if_pos rfl]
      congr 1
      show (match value W before "authorsShort" r with | .ok (some (.texts l)) => l.length | .ok (some (.cites l)) => l.length | .ok (some (.text s)) => s.length | _ => 0) = _
      rw [authors_read before h hf hr]
      by_cases hl : linesOf r.fields "AU" = []
      · rw [if_pos hl, hl]; rfl
      · rw [if_neg hl]

theorem readAll_ok {names : List Str} {rs : List Model.Wos.Rec} (hall : ∀ t ∈ names, ∀ r ∈ rs, ∃ v, value W before (String.ofList t) r = .ok v) :
    ∃ l, readAll W before names rs = .ok l := by
  refine ⟨_, Lemmas.Pipeline.mapM_ok _ (fun r => names.map (fun t => match value W before (String.ofList t) r with | .ok v => v | .error _ => none)) rs (fun r hr => ?_)⟩
  refine Lemmas.Pipeline.mapM_ok _ _ names (fun t ht => ?_)
  obtain ⟨v, e⟩ := hall t ht r hr
  rw [e]

theorem retrieved (o : Model.WriteCsv.Opts) (rs : List Model.Wos.Rec) {names : List Str}
    (hn : if o.longNames then (Spec.WriteCsv.wanted (Model.TagNames.fullToTag.get? ·) o (view W before genders).keys rs).mapM (Model.TagNames.wosTags.get? ·) = some names
        else names = Spec.WriteCsv.wanted (Model.TagNames.fullToTag.get? ·) o (view W before genders).keys rs) :
    Model.WriteCsv.retrievedFields (Model.TagNames.fullToTag.get? ·) (Model.TagNames.wosTags.get? ·) o (view W before genders).keys rs = some names := by
  unfold Model.WriteCsv.retrievedFields
  rw [WriteCsv.shortFields_eq _ o (view W before genders).keys (fun r => List.nodup_dedup _)]
  cases hl : o.longNames
  · rw [hl] at hn; simp only [Bool.false_eq_true, if_false] at hn ⊢; rw [hn]
  · rw [hl] at hn; simpa using hn

theorem not_counts {cols : List (Str × Str)} (hcols : ∀ c ∈ cols, TagTable.Wos c.1 c.2) {names : List Str} {long : Bool}
    (hn : ∀ t, t ∈ names ↔ ∃ c ∈ cols, t = head long c) : "num-Authors".toList ∉ names := by
  intro hm
  obtain ⟨c, hc, e⟩ := (hn _).1 hm
  obtain ⟨_, _, _, a, b, _⟩ := table c (hcols c hc)
  unfold head at e
  cases long
  · exact a e.symm
  · exact b e.symm

theorem header_eq (o : Model.WriteCsv.Opts) (hg : o.genderCounts = false) (names : List Str) : names ++ added o = header o.numAuthors names := by
  unfold added header; rw [hg]; exact congrArg _ (List.append_nil _)

/-- **C125, one csv file.** The file written of chosen columns, given by tags or long names, can be read back and holds the columns and then one row for each paper of the Web
of Science file with its texts in these columns. -/
theorem C125_csv (h : Setting W order) (hf : FileOk W.ws origin papers) (hint : ∀ n : Nat, W.prims.int (showNat n) = some (n : Int)) (o : Model.WriteCsv.Opts)
    (hd : o.dialect.Ok) (hs : o.splitByTag = none) (hg : o.genderCounts = false) {cols : List (Str × Str)} (hne : cols ≠ [])
    (hcols : ∀ c ∈ cols, TagTable.Wos c.1 c.2) {only : List Str} (ho : o.onlyTheseTags = some only)
    (honly : List.Forall₂ (fun t c => t = c.1 ∨ t = c.2) only cols) {cell : Str → Paper → Option Str}
    (hc : ∀ c ∈ cols, Texts W.prims papers o.listDelimiter (String.ofList (head o.longNames c)) (cell (head o.longNames c))) :
    ∃ (text : Str) (names : List Str) (inOrder : List Paper), csv W before order genders o (fileText origin papers) = some (.ok (.ok (.single text))) ∧
      (∀ t, t ∈ names ↔ ∃ c ∈ cols, t = head o.longNames c) ∧ (o.firstTags = some [] → names = cols.map (head o.longNames)) ∧ inOrder.Perm papers ∧
      CsvAll.read o.dialect text = header o.numAuthors names :: inOrder.map (row o.numAuthors names cell) := by
  obtain ⟨names, n1, n2, n3⟩ := columns o hne hcols ho honly (view W before genders).keys (order (papers.map toRec))
  have hc' : ∀ t ∈ names, Texts W.prims papers o.listDelimiter (String.ofList t) (cell t) := by
    intro t ht
    obtain ⟨c, h1, rfl⟩ := (n2 t).1 ht
    exact hc c h1
  obtain ⟨text, e1, e2⟩ := WriteCsv.C61_file (Model.TagNames.fullToTag.get? ·) (Model.TagNames.wosTags.get? ·) (view W before genders) (fun r => List.nodup_dedup _) o hd hs
    (order (papers.map toRec)) names n1
  obtain ⟨l, hl⟩ := readAll_ok before (names := asked o (view W before genders).keys (order (papers.map toRec))) (rs := order (papers.map toRec)) (by
    intro t ht r hr
    unfold asked at ht
    rw [hs, retrieved before genders o _ n1] at ht
    simp only [Option.toList_none, List.nil_append, Option.getD_some, List.mem_append] at ht
    rcases ht with ht | ht
    · obtain ⟨v, e, _⟩ := text_value before h hf hint (hc' t ht) hr
      exact ⟨v, e⟩
    · by_cases hn : o.numAuthors = true
      · rw [if_pos hn, List.mem_singleton] at ht
        exact ⟨_, by rw [ht]; exact authors_read before h hf hr⟩
      · rw [if_neg hn] at ht; cases ht)
  refine ⟨text, names, (order (papers.map toRec)).map Model.Wos.Rec.fields, ?_, n2, n3, ?_, ?_⟩
  · unfold csv
    rw [records_eq W order h.nl h.E hf]
    simp only [Option.map_some]
    rw [hl, e1]
    rfl
  · have := (h.perm (papers.map toRec)).map Model.Wos.Rec.fields
    rw [List.map_map] at this
    exact this.trans (by rw [show (Model.Wos.Rec.fields ∘ toRec) = id from rfl, List.map_id])
  · rw [e2, header_eq o hg, List.map_map]
    congr 1
    apply List.map_congr_left
    intro r hr
    rw [← header_eq o hg]
    exact row_eq before genders h hf hint o hg (not_counts hcols n2) hc' hr

/-- **C125, split csv files.** Split by a tag of names or of lists, one text is written for each item some paper has, and no other; it holds the columns and the row of each
paper as often as the paper has the item. -/
theorem C125_split (h : Setting W order) (hf : FileOk W.ws origin papers) (hint : ∀ n : Nat, W.prims.int (showNat n) = some (n : Int)) (o : Model.WriteCsv.Opts)
    (hd : o.dialect.Ok) {k : String} {items : Paper → List Str} (hi : Items papers k items) (hs : o.splitByTag = some k.toList) (hg : o.genderCounts = false)
    {cols : List (Str × Str)} (hne : cols ≠ []) (hcols : ∀ c ∈ cols, TagTable.Wos c.1 c.2) {only : List Str} (ho : o.onlyTheseTags = some only)
    (honly : List.Forall₂ (fun t c => t = c.1 ∨ t = c.2) only cols) {cell : Str → Paper → Option Str}
    (hc : ∀ c ∈ cols, Texts W.prims papers o.listDelimiter (String.ofList (head o.longNames c)) (cell (head o.longNames c))) :
    ∃ (files : Dict Str Str) (names : List Str) (inOrder : List Paper), csv W before order genders o (fileText origin papers) = some (.ok (.ok (.split files))) ∧
      (∀ t, t ∈ names ↔ ∃ c ∈ cols, t = head o.longNames c) ∧ (o.firstTags = some [] → names = cols.map (head o.longNames)) ∧ inOrder.Perm papers ∧
      (∀ s, (files.get? s).isSome ↔ ∃ p ∈ papers, s ∈ items p) ∧
      ∀ s text, files.get? s = some text → CsvAll.read o.dialect text =
        header o.numAuthors names :: inOrder.flatMap (fun p => List.replicate ((items p).count s) (row o.numAuthors names cell p)) := by
  obtain ⟨names, n1, n2, n3⟩ := columns o hne hcols ho honly (view W before genders).keys (order (papers.map toRec))
  have hc' : ∀ t ∈ names, Texts W.prims papers o.listDelimiter (String.ofList t) (cell t) := by
    intro t ht
    obtain ⟨c, h1, rfl⟩ := (n2 t).1 ht
    exact hc c h1
  have hk : k.toList ≠ [] := by
    obtain ⟨tag, long, hw, e, _⟩ := hi.have_items
    obtain ⟨_, _, _, _, _, a, b⟩ := table _ hw
    rcases e with rfl | rfl
    · exact a
    · exact b
  have hget : ∀ r ∈ order (papers.map toRec), (view W before genders).get r k.toList = (listed (items r.fields)).map csvVal := fun r hr =>
    get_eq before genders (by rw [String.ofList_toList]; exact items_value before h hf hi hr)
  have hvals : ∀ r ∈ order (papers.map toRec), Spec.WriteCsv.valuesOf (view W before genders) k.toList r = items r.fields := by
    intro r hr
    unfold Spec.WriteCsv.valuesOf
    rw [hget r hr]
    unfold listed
    by_cases hl : items r.fields = []
    · rw [if_pos hl, hl]; rfl
    · rw [if_neg hl]
      simp [csvVal, Function.comp_def]
  have hmix : ∀ r ∈ order (papers.map toRec), ¬ Spec.WriteCsv.Mixed (view W before genders) k.toList r := by
    rintro r hr ⟨t, its, e, i, hi, hb⟩
    rw [hget r hr] at e
    unfold listed at e
    by_cases hl : items r.fields = []
    · rw [if_pos hl] at e; cases e
    · rw [if_neg hl] at e
      simp only [Option.map_some, csvVal, Option.some.injEq, Model.WriteCsv.Val.iter.injEq] at e
      rw [← e.2.2] at hi
      obtain ⟨_, _, rfl⟩ := List.mem_map.1 hi
      cases hb
  obtain ⟨files, e1, e2, e3⟩ := WriteCsv.C61_split (Model.TagNames.fullToTag.get? ·) (Model.TagNames.wosTags.get? ·) (view W before genders) (fun r => List.nodup_dedup _) o hd
    k.toList hk hs (order (papers.map toRec)) names n1 hmix
  obtain ⟨l, hl⟩ := readAll_ok before (names := asked o (view W before genders).keys (order (papers.map toRec))) (rs := order (papers.map toRec)) (by
    intro t ht r hr
    unfold asked at ht
    rw [hs, retrieved before genders o _ n1] at ht
    simp only [Option.toList_some, Option.getD_some, List.mem_append, List.mem_singleton] at ht
    rcases ht with (rfl | ht) | ht
    · exact ⟨_, by rw [String.ofList_toList]; exact items_value before h hf hi hr⟩
    · obtain ⟨v, e, _⟩ := text_value before h hf hint (hc' t ht) hr
      exact ⟨v, e⟩
    · by_cases hn : o.numAuthors = true
      · rw [if_pos hn, List.mem_singleton] at ht
        exact ⟨_, by rw [ht]; exact authors_read before h hf hr⟩
      · rw [if_neg hn] at ht; cases ht)
  refine ⟨files, names, (order (papers.map toRec)).map Model.Wos.Rec.fields, ?_, n2, n3, ?_, ?_, ?_⟩
  · unfold csv
    rw [records_eq W order h.nl h.E hf]
    simp only [Option.map_some]
    rw [hl, e1]
    rfl
  · have := (h.perm (papers.map toRec)).map Model.Wos.Rec.fields
    rw [List.map_map] at this
    exact this.trans (by rw [show (Model.Wos.Rec.fields ∘ toRec) = id from rfl, List.map_id])
  · intro s
    rw [e2]
    constructor
    · rintro ⟨r, hr, hm⟩
      rw [hvals r hr] at hm
      exact ⟨r.fields, (of_order h hf hr).2.2, hm⟩
    · rintro ⟨p, hp, hm⟩
      have hr := (h.perm _).mem_iff.2 (List.mem_map_of_mem (f := toRec) hp)
      exact ⟨toRec p, hr, by rw [hvals _ hr]; exact hm⟩
  · intro s text ht
    rw [e3 s text ht, header_eq o hg]
    congr 1
    unfold Spec.WriteCsv.rowsFor
    rw [List.flatMap_map]
    apply List.flatMap_congr
    intro r hr
    rw [hvals r hr, ← header_eq o hg, row_eq before genders h hf hint o hg (not_counts hcols n2) hc' hr]

end
/-! ## A file -/

/-- The texts of the three papers. -/
def cellIn (t : Str) (p : Paper) : Option Str :=
  if t = "AF".toList then (if linesOf p "AF" = [] then none else some ("|".toList.intercalate (linesOf p "AF")))
  else if t = "WC".toList then (if linesOf p "WC" = [] then none else some "Physics|Applied Mathematics".toList)
  else if t = "PY".toList then (linesOf p "PY").head?
  else none

def colsIn : List (Str × Str) := [("PY".toList, "year".toList), ("AF".toList, "authorsFull".toList), ("TI".toList, "title".toList), ("WC".toList, "subjects".toList)]

theorem texts_in : ∀ c ∈ colsIn, Texts w.prims Pipeline.file ['|'] (String.ofList (head false c)) (cellIn (head false c)) := by
  intro c hc
  have hwos : ∀ c ∈ colsIn, TagTable.Wos c.1 c.2 := by unfold TagTable.Wos; decide +kernel
  refine ⟨String.ofList c.1, String.ofList c.2, by rw [String.toList_ofList, String.toList_ofList]; exact hwos c hc, .inl rfl, ?_⟩
  simp only [colsIn, List.mem_cons, List.not_mem_nil, or_false] at hc
  rcases hc with rfl | rfl | rfl | rfl
  · intro p hp
    refine ⟨(by decide +kernel : ∀ p ∈ Pipeline.file, (cellIn (head false ("PY".toList, "year".toList)) p = none ↔ linesOf p (String.ofList "PY".toList) = [])) p hp, fun s hs => ?_⟩
    have := (by decide +kernel : ∀ p ∈ Pipeline.file, cellIn (head false ("PY".toList, "year".toList)) p = none ∨
      (linesOf p (String.ofList "PY".toList) = [showNat 2001] ∧ cellIn (head false ("PY".toList, "year".toList)) p = some (showNat 2001))) p hp
    rcases this with e | ⟨e1, e2⟩
    · rw [e] at hs; cases hs
    · rw [e2] at hs
      refine ⟨.num (2001 : Nat), ?_, (Option.some.inj hs).symm⟩
      rw [e1, String.toList_ofList]
      exact .year 2001 [] (by decide) (by decide)
  · intro p hp
    refine ⟨(by decide +kernel : ∀ p ∈ Pipeline.file, (cellIn (head false ("AF".toList, "authorsFull".toList)) p = none ↔ linesOf p (String.ofList "AF".toList) = [])) p hp, fun s hs => ?_⟩
    refine ⟨_, .names _ _ (by decide +kernel), ?_⟩
    have := (by decide +kernel : ∀ p ∈ Pipeline.file, cellIn (head false ("AF".toList, "authorsFull".toList)) p = none ∨
      cellIn (head false ("AF".toList, "authorsFull".toList)) p = some (['|'].intercalate (linesOf p (String.ofList "AF".toList)))) p hp
    rcases this with e | e
    · rw [e] at hs; cases hs
    · rw [e] at hs; exact (Option.some.inj hs).symm
  · intro p hp
    have e := (by decide +kernel : ∀ p ∈ Pipeline.file, cellIn (head false ("TI".toList, "title".toList)) p = none ∧ linesOf p (String.ofList "TI".toList) = []) p hp
    refine ⟨⟨fun _ => e.2, fun _ => e.1⟩, fun s hs => ?_⟩
    rw [e.1] at hs; cases hs
  · intro p hp
    refine ⟨(by decide +kernel : ∀ p ∈ Pipeline.file, (cellIn (head false ("WC".toList, "subjects".toList)) p = none ↔ linesOf p (String.ofList "WC".toList) = [])) p hp, fun s hs => ?_⟩
    refine ⟨_, .items _ _ ["Physics".toList, "Applied Mathematics".toList] (by decide +kernel) (by decide) ?_ ?_, ?_⟩
    · decide +kernel
    · have := (by decide +kernel : ∀ p ∈ Pipeline.file, cellIn (head false ("WC".toList, "subjects".toList)) p = none ∨
        textOf p (String.ofList "WC".toList) = "; ".toList.intercalate ["Physics".toList, "Applied Mathematics".toList]) p hp
      rcases this with e | e
      · rw [e] at hs; cases hs
      · exact e
    · have := (by decide +kernel : ∀ p ∈ Pipeline.file, cellIn (head false ("WC".toList, "subjects".toList)) p = none ∨
        cellIn (head false ("WC".toList, "subjects".toList)) p = some (['|'].intercalate ["Physics".toList, "Applied Mathematics".toList])) p hp
      rcases this with e | e
      · rw [e] at hs; cases hs
      · rw [e] at hs; exact (Option.some.inj hs).symm

/-- Four columns, two of them given by their long names. -/
def opts (split : Option Str) : Model.WriteCsv.Opts :=
  ⟨none, split, some ["PY".toList, "authorsFull".toList, "title".toList, "WC".toList], true, false, false, some [], ⟨',', '"'⟩, ['|']⟩

theorem cols_ok : ∀ c ∈ colsIn, TagTable.Wos c.1 c.2 := by unfold TagTable.Wos; decide +kernel

theorem only_ok : List.Forall₂ (fun (t : Str) (c : Str × Str) => t = c.1 ∨ t = c.2) ["PY".toList, "authorsFull".toList, "title".toList, "WC".toList] colsIn :=
  .cons (.inl rfl) (.cons (.inr rfl) (.cons (.inr rfl) (.cons (.inl rfl) .nil)))

/-- The file has a row for each paper; that of the first is as expected. -/
example : ∃ text rows, csv w (fun _ => [.item "AF"]) List.reverse (fun _ => (0, 0, 0)) (opts none) (fileText "FN Clarivate".toList Pipeline.file) = some (.ok (.ok (.single text))) ∧
    CsvAll.read ⟨',', '"'⟩ text = ["PY".toList, "AF".toList, "TI".toList, "WC".toList, "num-Authors".toList] :: rows ∧ rows.length = 3 ∧
    ["2001".toList, "Ada|Bob".toList, [], "Physics|Applied Mathematics".toList, "0".toList] ∈ rows := by
  obtain ⟨text, names, l, h1, _, h3, h4, h5⟩ := C125_csv (fun _ => [.item "AF"]) (fun _ => (0, 0, 0)) setting Pipeline.file_ok Derived.int_ok (opts none) (by decide) rfl rfl
    (by decide) cols_ok rfl only_ok texts_in
  rw [h3 rfl] at h5
  refine ⟨text, _, h1, h5, ?_, ?_⟩
  · rw [List.length_map, h4.length_eq]; rfl
  · exact List.mem_map.2 ⟨Pipeline.file[0], h4.mem_iff.2 (List.getElem_mem _), by decide +kernel⟩

/-- Split by authors there is a file for Cy, with one row, and none for Dee. -/
example : ∃ (files : Dict Str Str) (text : Str), csv w (fun _ => []) List.reverse (fun _ => (0, 0, 0)) (opts (some "AF".toList)) (fileText "FN Clarivate".toList Pipeline.file) =
      some (.ok (.ok (.split files))) ∧
    files.get? "Cy".toList = some text ∧ (CsvAll.read ⟨',', '"'⟩ text).length = 2 ∧ files.get? "Dee".toList = none := by
  obtain ⟨files, names, l, h1, _, _, h4, h5, h6⟩ := C125_split (fun _ => []) (fun _ => (0, 0, 0)) setting Pipeline.file_ok Derived.int_ok (opts (some "AF".toList)) (by decide)
    authors rfl rfl (by decide) cols_ok rfl only_ok texts_in
  have hcy := (h5 "Cy".toList).2 (by decide +kernel)
  obtain ⟨text, ht⟩ := Option.isSome_iff_exists.1 hcy
  refine ⟨files, text, h1, ht, ?_, ?_⟩
  · have h6' := h6 _ _ ht
    have : (CsvAll.read ⟨',', '"'⟩ text).length = 1 + (Pipeline.file.map (fun p => (linesOf p "AF").count "Cy".toList)).sum := by
      refine (congrArg List.length h6').trans ?_
      rw [List.length_cons, List.length_flatMap, Nat.add_comm]
      congr 1
      rw [← (h4.map (fun p => (linesOf p "AF").count "Cy".toList)).sum_nat]
      congr 1
      apply List.map_congr_left
      intro p _
      rw [List.length_replicate]
    rw [this]
    decide +kernel
  · cases hdee : files.get? "Dee".toList with
    | none => rfl
    | some t => exact absurd ((h5 "Dee".toList).1 (by rw [hdee]; rfl)) (by decide +kernel)

theorem subject_texts : Texts w.prims Pipeline.file [' '] "subjects" (fun p => if linesOf p "WC" = [] then none else some "Physics Applied Mathematics".toList) := by
  refine ⟨"WC", "subjects", by unfold TagTable.Wos; decide +kernel, .inr rfl, fun p hp => ⟨?_, fun s hs => ?_⟩⟩
  · by_cases e : linesOf p "WC" = []
    · rw [if_pos e]; exact ⟨fun _ => e, fun _ => rfl⟩
    · rw [if_neg e]; exact ⟨fun h => (by cases h), fun h => absurd h e⟩
  · refine ⟨_, .items _ _ ["Physics".toList, "Applied Mathematics".toList] (by decide) (by decide) (by decide +kernel) ?_, ?_⟩
    · have := (by decide +kernel : ∀ p ∈ Pipeline.file, linesOf p "WC" = [] ∨ textOf p "WC" = "; ".toList.intercalate ["Physics".toList, "Applied Mathematics".toList]) p hp
      rcases this with e | e
      · rw [if_pos e] at hs; cases hs
      · exact e
    · split at hs
      · cases hs
      · rw [← Option.some.inj hs]; decide +kernel

/-- The word `Applied` comes once with the year 2001. -/
example : ∃ out, Model.FileExports.burst w (fun _ => []) List.reverse ⟨(· == ' '), Char.isAlpha, Char.isDigit, id⟩ ⟨none, true, true, true, true, false, none⟩ "subjects"
      (fileText "FN Clarivate".toList Pipeline.file) = some (.ok out) ∧ (out.1.zip out.2).count (FVal.num 2001, "Applied".toList) = 1 := by
  obtain ⟨out, h1, _, _, h4⟩ := C125_burst (fun _ => []) setting Pipeline.file_ok Derived.int_ok years_file subject_texts ⟨(· == ' '), Char.isAlpha, Char.isDigit, id⟩ rfl
    ⟨fun _ _ => rfl, fun _ h => h⟩ true true true false none
    (words := fun p => if linesOf p "WC" = [] then [] else ["Physics".toList, "Applied".toList, "Mathematics".toList]) (by
      intro p _
      dsimp only
      by_cases e : linesOf p "WC" = []
      · rw [if_pos e, if_pos e]; exact ⟨fun _ => rfl, fun s hs => by cases hs⟩
      · rw [if_neg e, if_neg e]
        refine ⟨fun h => (by cases h), fun s hs => ?_⟩
        rw [← Option.some.inj hs]
        exact .more "Physics".toList [' '] "Applied Mathematics".toList _ _ (by decide) (by decide) (by decide) (.inl (by decide))
          (.more "Applied".toList [' '] "Mathematics".toList _ _ (by decide) (by decide) (by decide) (.inl (by decide)) (.last _ (by decide))))
  refine ⟨out, h1, (h4 2001 "Applied".toList (fun p => if linesOf p "WC" = [] then 0 else 1) ?_ ?_).trans (by decide +kernel)⟩
  · exact fun p hp _ => (by decide +kernel : ∀ p ∈ Pipeline.file, (if linesOf p "WC" = [] then 0 else 1) =
      ((if linesOf p "WC" = [] then ([] : List Str) else ["Physics".toList, "Applied".toList, "Mathematics".toList]).map
        (fun w => Words.cleaned Char.isDigit Char.isAlpha true true w)).count "Applied".toList) p hp
  · intro p hp ho
    have := (by decide +kernel : ∀ p ∈ Pipeline.file, linesOf p "WC" = [] ∨ (linesOf p "PY").head? = some (showNat 2001)) p hp
    rcases this with e | e
    · exact if_pos e
    · exact absurd ⟨by decide, by decide, e⟩ ho

end Verif.Props.FileExports
