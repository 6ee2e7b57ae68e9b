import Verif.Spec.FileBib
import Verif.Model.FileBib
import Verif.Props.FileFrames
import Verif.Props.BibEntry
import Verif.Props.RecordMapping

/-! # C128: from a Web of Science file to a bib file -/
set_option autoImplicit false
set_option linter.unusedSimpArgs false
namespace Verif.Props.FileBib
open Verif.Py Verif.Model.WosFields Verif.Model.RecordAccess Verif.Model.Pipeline Verif.Model.FileBib Verif.Spec.Pipeline Verif.Spec.FileBib Verif.Spec.WosMeaning
  Verif.Spec Verif.Lemmas.Pipeline Verif.Props.Pipeline
open Verif.Spec.BibEntry (entryLines wosText)

/-! ## Values -/

theorem wos_py : ∃ name, TagTable.Wos "PY".toList name := (WosFields.C69_every_tag _).2 (by decide +kernel)
theorem wos_pd : ∃ name, TagTable.Wos "PD".toList name := (WosFields.C69_every_tag _).2 (by decide +kernel)

theorem means_year {P : Prims} {tag : Str} {lines : List Str} {v : FVal} (h : Means P tag lines v) (ht : tag = "PY".toList ∨ tag = "PD".toList) :
    ∃ n : Nat, n ≠ 0 ∧ v = .num n := by
  cases h with
  | year y rest h1 h2 => exact ⟨y, by omega, rfl⟩
  | month m tail rest n h1 h2 h3 h4 =>
    have : ∀ p ∈ months, p.2 ≠ 0 := by decide
    exact ⟨n, this _ h1, rfl⟩
  | unknown _ _ h1 =>
    rcases ht with rfl | rfl
    · exact absurd wos_py.choose_spec (h1 _)
    · exact absurd wos_pd.choose_spec (h1 _)
  | text _ _ m => rcases ht with rfl | rfl <;> exact absurd m (by decide)
  | upper _ _ m => rcases ht with rfl | rfl <;> exact absurd m (by decide)
  | names _ _ m => rcases ht with rfl | rfl <;> exact absurd m (by decide)
  | items _ _ _ m => rcases ht with rfl | rfl <;> exact absurd m (by decide)
  | first _ _ _ m => rcases ht with rfl | rfl <;> exact absurd m (by decide)
  | volume _ _ _ m => rcases ht with rfl | rfl <;> exact absurd m (by decide)
  | count _ n _ m => rcases ht with rfl | rfl <;> exact absurd m (by decide)
  | _ => rcases ht with e | e <;> exact absurd e (by decide)

/-! ## What is read of a paper -/

/-- The record `bibString` sees. -/
def seen (nice : Bool) (cell : Str × List Str → FVal) (p : Paper) : Model.BibEntry.Rec where
  bad := false
  id := ident p
  authorsFull := if linesOf p "AF" = [] then none else some (linesOf p "AF")
  year := if nice then under cell p "PY" else none
  month := if nice then under cell p "PD" else none
  title := if nice then (if textOf p "TI" = [] then none else some (textOf p "TI")) else none
  items := p.map (fun f => (f.1, asValue (cell f)))
  field := fun _ => none

section
variable {W : World} {order : List Model.Wos.Rec → List Model.Wos.Rec} (before : Model.Wos.Rec → List (Op String FVal)) {origin : Str} {papers : List Paper}

theorem field_mem {p : Paper} {tag : String} (h : linesOf p tag ≠ []) : (tag.toList, linesOf p tag) ∈ p := by
  unfold linesOf at h ⊢
  cases hf : p.find? (fun f => decide (f.1 = tag.toList)) with
  | none => rw [hf] at h; exact absurd rfl h
  | some f =>
    have h1 := List.mem_of_find?_eq_some hf
    have h2 : f.1 = tag.toList := by simpa using List.find?_some hf
    show (tag.toList, f.2) ∈ p
    rw [← h2]; exact h1

theorem items_eq (h : Setting W order) (hf : FileOk W.ws origin papers) (hint : ∀ n : Nat, W.prims.int (showNat n) = some (n : Int)) {cell : Str × List Str → FVal}
    (hc : ∀ p ∈ papers, ∀ f ∈ p, Means W.prims f.1 f.2 (cell f)) {p : Paper} (hp : p ∈ papers) :
    Model.RecordMapping.items (cls W) 3 (held W (before (toRec p)) (toRec p)) = .ok (p.map (fun f => (String.ofList f.1, cell f))) := by
  have hok := hf.each p hp
  have hproc : ∀ f ∈ p, (cls W).proc (String.ofList f.1) f.2 = .ok (cell f) := by
    intro f hf'
    unfold cls
    dsimp only
    rw [String.toList_ofList, Lemmas.WosMeaning.means_value hint (hc p hp f hf')]
  have hwf : (strFields p).WF := by
    show ((strFields p).map Prod.fst).Nodup
    have e : (strFields p).map Prod.fst = (p.map Prod.fst).map String.ofList := by unfold strFields; rw [List.map_map, List.map_map]; rfl
    rw [e]
    exact hok.fields.nodup.map (fun a b e => by rw [← String.toList_ofList (l := a), e, String.toList_ofList])
  obtain ⟨l, e1, e2, _, _⟩ := (RecordMapping.C105_items (RecordMapping.wos_class W) hwf (noClash W hok) (before (toRec p))).1 (by
    intro f hf'
    obtain ⟨g, hg, rfl⟩ := List.mem_map.1 hf'
    exact ⟨_, hproc g hg⟩)
  have e3 : l = p.map (fun f => (String.ofList f.1, cell f)) := by
    have : ∀ (q : Paper) (l : List (String × FVal)), (∀ f ∈ q, (cls W).proc (String.ofList f.1) f.2 = .ok (cell f)) → Spec.RecordMapping.Reads (cls W).proc (strFields q) l →
        l = q.map (fun f => (String.ofList f.1, cell f)) := by
      intro q
      induction q with
      | nil => intro l _ h; exact h
      | cons f q ih =>
        intro l hq h
        obtain ⟨v, rest, h1, rfl, h3⟩ := h
        rw [hq f (by simp)] at h1
        cases h1
        rw [List.map_cons, ih rest (fun f hf => hq f (List.mem_cons_of_mem _ hf)) h3]
    exact this p l hproc e2
  rw [← e3]; exact e1

theorem rec_eq (h : Setting W order) (hf : FileOk W.ws origin papers) (hint : ∀ n : Nat, W.prims.int (showNat n) = some (n : Int)) {cell : Str × List Str → FVal}
    (hc : ∀ p ∈ papers, ∀ f ∈ p, Means W.prims f.1 f.2 (cell f)) (nice : Bool) {p : Paper} (hp : p ∈ papers) : bibRec W before nice (toRec p) = .ok (seen nice cell p) := by
  have hok := hf.each p hp
  have hval : ∀ tag long : String, TagTable.Wos tag.toList long.toList →
      value W before long (toRec p) = .ok (if linesOf p tag = [] then none else some (cell (tag.toList, linesOf p tag))) := by
    intro tag long hw
    rw [value_eq W before hok tag long long hw (.inr rfl)]
    by_cases hl : linesOf p tag = []
    · rw [if_pos hl, if_pos hl]
    · rw [if_neg hl, if_neg hl, Lemmas.WosMeaning.means_value hint (hc p hp _ (field_mem hl))]; rfl
  have hA := hval "AF" "authorsFull" ((mem_wos _ _).1 (by decide +kernel))
  have hY := hval "PY" "year" ((mem_wos _ _).1 (by decide +kernel))
  have hM := hval "PD" "month" ((mem_wos _ _).1 (by decide +kernel))
  have hT := hval "TI" "title" ((mem_wos _ _).1 (by decide +kernel))
  have eA : authorList (if linesOf p "AF" = [] then none else some (cell ("AF".toList, linesOf p "AF"))) = if linesOf p "AF" = [] then none else some (linesOf p "AF") := by
    by_cases hl : linesOf p "AF" = []
    · rw [if_pos hl, if_pos hl]; rfl
    · rw [if_neg hl, if_neg hl]
      have := Lemmas.WosMeaning.means_value hint (hc p hp _ (field_mem hl))
      rw [(WosFields.C69_lines W.prims "AF".toList (by decide) _).1] at this
      rw [← Except.ok.inj this]; rfl
  have eN : ∀ tag : String, tag = "PY" ∨ tag = "PD" → truthText (if linesOf p tag = [] then none else some (cell (tag.toList, linesOf p tag))) = under cell p tag := by
    intro tag ht
    unfold under
    by_cases hl : linesOf p tag = []
    · rw [if_pos hl, if_pos hl]; rfl
    · rw [if_neg hl, if_neg hl]
      obtain ⟨n, h1, h2⟩ := means_year (hc p hp _ (field_mem hl)) (by rcases ht with rfl | rfl <;> simp)
      rw [h2]
      show (if (n : Int) = 0 then none else some (showInt n)) = _
      rw [if_neg (by omega)]; rfl
  have eT : truthText (if linesOf p "TI" = [] then none else some (cell ("TI".toList, linesOf p "TI"))) = if textOf p "TI" = [] then none else some (textOf p "TI") := by
    by_cases hl : linesOf p "TI" = []
    · rw [if_pos hl, if_pos (by unfold textOf; rw [hl]; rfl)]; rfl
    · rw [if_neg hl]
      have := Lemmas.WosMeaning.means_value hint (hc p hp _ (field_mem hl))
      rw [WosFields.C69_text W.prims "TI".toList (by decide)] at this
      rw [← Except.ok.inj this]; rfl
  have hI := items_eq before h hf hint hc hp
  have eI : (p.map (fun f => (String.ofList f.1, cell f))).map (fun q => (q.1.toList, bibVal q.2)) = p.map (fun f => (f.1, asValue (cell f))) := by
    rw [List.map_map]
    apply List.map_congr_left
    intro f _
    show ((String.ofList f.1).toList, bibVal (cell f)) = _
    rw [String.toList_ofList]
    cases cell f <;> rfl
  unfold bibRec seen
  rw [hA, hI]
  cases nice with
  | false =>
    simp only [Bool.false_eq_true, if_false]
    show Except.ok _ = _
    rw [eA, eI]; rfl
  | true =>
    simp only [if_true]
    rw [hY, hM, hT]
    show Except.ok _ = _
    rw [eA, eI, eN "PY" (.inl rfl), eN "PD" (.inr rfl), eT]; rfl

/-! ## Keys -/

theorem key_of (title : Str → Str) (wos nice : Bool) (cell : Str × List Str → FVal) (p : Paper) :
    KeyOf title wos nice cell p (Model.BibEntry.bibID title wos nice (seen nice cell p)) := by
  unfold KeyOf
  cases nice with
  | false => rw [if_neg (by simp)]; unfold Model.BibEntry.bibID; cases wos <;> rfl
  | true =>
    rw [if_pos rfl]
    have hh : Spec.BibEntry.keyHead title (seen true cell p) = niceHead title cell p := by
      unfold Spec.BibEntry.keyHead niceHead seen
      dsimp only
      cases linesOf p "AF" <;> rfl
    by_cases ht : textOf p "TI" = []
    · refine ⟨niceHead title cell p, ?_, .inl ⟨ht, rfl⟩⟩
      rw [BibEntry.C65_nice_untitled title wos _ (.inl (by unfold seen; simp [ht])), hh]; rfl
    · obtain ⟨ws, k, body, a1, a2, a3, a4, a5, a6, a7, a8⟩ := BibEntry.C65_nice_key title wos (seen true cell p) (textOf p "TI") (by unfold seen; simp [ht]) ht
      rw [hh] at a5 a6
      exact ⟨body, a8, .inr ⟨ht, ws, k, a1, a2, a3, a4, a5, a6, a7⟩⟩

/-! ## Entries -/

theorem text_shown (v : FVal) : (asValue v).text = shown v := by
  cases v <;> first | rfl | exact Bib.join_intercalate _ _

theorem format_short (v : FVal) (m : Int) (hm : ((shown v).length : Int) ≤ m) : Model.Bib.bibFormatter (asValue v) m = some (quoted (shown v)) := by
  unfold Model.Bib.bibFormatter quoted
  simp only
  rw [text_shown, if_neg (by omega)]
  by_cases h : '"' ∈ shown v
  · rw [if_neg (by simpa using h), if_pos h, Bib.replace_braces]
  · rw [if_pos h, if_neg h]

theorem authors_seen (nice : Bool) (cell : Str × List Str → FVal) (p : Paper) : Spec.BibEntry.authorsOf (seen nice cell p) = FileBib.authors p := by
  unfold Spec.BibEntry.authorsOf FileBib.authors seen
  dsimp only
  by_cases hl : linesOf p "AF" = []
  · rw [if_pos hl, if_pos hl]
  · rw [if_neg hl, if_neg hl]

theorem plain_entry (title : Str → Str) (m : Int) (nice : Bool) (cell : Str × List Str → FVal) (p : Paper) (hm : ∀ f ∈ p, ((shown (cell f)).length : Int) ≤ m) :
    Model.BibEntry.bibString title m false false nice (seen nice cell p) =
      .ok (['\n'].intercalate (entryLines (Model.BibEntry.bibID title false nice (seen nice cell p)) (authors p) (p.map (fun f => (f.1, quoted (shown (cell f))))))) := by
  have hes : (p.map (fun f => (f.1, asValue (cell f)))).mapM (Model.BibEntry.plainEntry m) =
      .ok ((p.map (fun f => (f.1, asValue (cell f)))).map (fun q => q.1 ++ " = ".toList ++ quoted (match q.2 with | .str s => s | .other s => s | .list l => " and ".toList.intercalate l) ++ ",".toList)) := by
    apply mapM_ok
    intro q hq
    obtain ⟨f, hf, rfl⟩ := List.mem_map.1 hq
    unfold Model.BibEntry.plainEntry
    dsimp only
    rw [format_short _ m (hm f hf)]
    cases cell f <;> rfl
  unfold Model.BibEntry.bibString
  have hb : (seen nice cell p).bad = false := rfl
  have ht : Model.BibEntry.tagsIter false (seen nice cell p) = p.map (fun f => (f.1, asValue (cell f))) := rfl
  simp only [hb, Bool.false_eq_true, if_false]
  rw [ht, hes]
  show Except.ok _ = _
  congr 1
  generalize Model.BibEntry.bibID title false nice (seen nice cell p) = key
  rw [show (",\n    ".toList : Str) = ",\n".toList ++ "    ".toList from rfl, show ("\n    ".toList : Str) = "\n".toList ++ "    ".toList from rfl]
  have e1 : ∀ es : List Str, "@misc{ ".toList ++ key ++ (",\n".toList ++ "    ".toList) ++ Str.join ("\n".toList ++ "    ".toList) (Model.BibEntry.authorEntry (seen nice cell p) :: es) ++ "\n}".toList =
      ("@misc{ ".toList ++ key ++ ",".toList) ++ "\n".toList ++
        (("    ".toList ++ Str.join ("\n".toList ++ "    ".toList) (Model.BibEntry.authorEntry (seen nice cell p) :: es)) ++ "\n".toList ++ "}".toList) := by
    intro es; simp
  rw [e1, BibEntry.join_indent, List.map_cons, BibEntry.join_snoc, ← Str.join_cons _ _ _ (by simp)]
  rw [show (['\n'] : Str) = "\n".toList from rfl, ← Bib.join_intercalate]
  unfold entryLines Model.BibEntry.authorEntry
  rw [BibEntry.authors_eq, authors_seen]
  simp only [List.map_map, Function.comp_def, List.append_assoc, List.cons_append]
  congr 3
  congr 1
  apply List.map_congr_left
  intro f _
  cases cell f <;> rfl

theorem first_lines : Model.BibEntry.header = preamble := by decide +kernel

theorem bib_eq (h : Setting W order) (hf : FileOk W.ws origin papers) (hint : ∀ n : Nat, W.prims.int (showNat n) = some (n : Int)) {cell : Str × List Str → FVal}
    (hc : ∀ p ∈ papers, ∀ f ∈ p, Means W.prims f.1 f.2 (cell f)) (title : Str → Str) (m : Int) (wos nice : Bool) :
    bib W before order title m wos nice (fileText origin papers) =
      some (.ok (Model.BibEntry.writeBib title m wos false nice (((order (papers.map toRec)).map Model.Wos.Rec.fields).map (seen nice cell)))) := by
  unfold bib
  rw [records_eq W order h.nl h.E hf]
  simp only [Option.map_some]
  rw [mapM_ok (bibRec W before nice) (fun r => seen nice cell r.fields) _ (fun r hr => by
    obtain ⟨_, h2, h3⟩ := of_order h hf hr
    rw [h2]; exact rec_eq before h hf hint hc nice h3)]
  rw [List.map_map]; rfl

/-- **C128, bib files.** The bib file written from a Web of Science file has, after its first lines, one entry for each paper, after an empty line each: the key, the authors, and
every field of the paper in the order of the file, with its tag and what its lines mean, in quotes, or in braces when there are quotes in it. Keys that are not nice are the accession
numbers, so that no two entries have the same. -/
theorem C128_plain (h : Setting W order) (hf : FileOk W.ws origin papers) (hint : ∀ n : Nat, W.prims.int (showNat n) = some (n : Int)) {cell : Str × List Str → FVal}
    (hc : ∀ p ∈ papers, ∀ f ∈ p, Means W.prims f.1 f.2 (cell f)) (title : Str → Str) (m : Int) (hm : ∀ p ∈ papers, ∀ f ∈ p, ((shown (cell f)).length : Int) ≤ m) (nice : Bool) :
    ∃ (inOrder : List Paper) (key : Paper → Str), inOrder.Perm papers ∧ (∀ p ∈ papers, KeyOf title false nice cell p (key p)) ∧ (nice = false → (inOrder.map key).Nodup) ∧
      bib W before order title m false nice (fileText origin papers) = some (.ok (preamble ++ inOrder.flatMap (fun p =>
        "\n\n".toList ++ ['\n'].intercalate (entryLines (key p) (authors p) (p.map (fun f => (f.1, quoted (shown (cell f))))))), none)) := by
  have hperm := FileFrames.in_order (papers := papers) h
  refine ⟨_, fun p => Model.BibEntry.bibID title false nice (seen nice cell p), hperm, fun p _ => key_of title false nice cell p, ?_, ?_⟩
  · rintro rfl
    have hk : ∀ p, Model.BibEntry.bibID title false false (seen false cell p) = ident p := fun _ => rfl
    simp only [hk]
    refine (hperm.map ident).nodup_iff.2 ?_
    have hd := hf.different
    have hu : ∀ p ∈ papers, linesOf p "UT" ≠ [] := fun p hp => (hf.each p hp).ut
    clear hm hc hperm hf
    induction papers with
    | nil => exact List.nodup_nil
    | cons p ps ih =>
      rw [List.map_cons, List.nodup_cons] at hd ⊢
      refine ⟨fun hm => hd.1 ?_, ih hd.2 (fun q hq => hu q (List.mem_cons_of_mem _ hq))⟩
      obtain ⟨q, hq, e⟩ := List.mem_map.1 hm
      refine List.mem_map.2 ⟨q, hq, ?_⟩
      have h1 := hu p (by simp)
      have h2 := hu q (List.mem_cons_of_mem _ hq)
      unfold ident at e
      cases hl : linesOf p "UT" with
      | nil => exact absurd hl h1
      | cons a as =>
        cases hl' : linesOf q "UT" with
        | nil => exact absurd hl' h2
        | cons b bs => rw [hl, hl'] at e; simpa using e
  · rw [bib_eq before h hf hint hc]
    rw [BibEntry.C65_file title m false false nice _ (((order (papers.map toRec)).map Model.Wos.Rec.fields).map (fun p =>
      ['\n'].intercalate (entryLines (Model.BibEntry.bibID title false nice (seen nice cell p)) (authors p) (p.map (fun f => (f.1, quoted (shown (cell f)))))))) (by
        generalize ((order (papers.map toRec)).map Model.Wos.Rec.fields) = l at hperm
        rw [List.map_map, List.map_map]
        apply List.map_congr_left
        intro p hp
        exact plain_entry title m nice cell p (hm p (hperm.mem_iff.1 hp)))]
    rw [List.flatMap_map, first_lines]

/-- **C128, bib files in the style of Web of Science.** The same with double braces around the values, unchanged, and the members of lists on lines of their own. -/
theorem C128_wos (h : Setting W order) (hf : FileOk W.ws origin papers) (hint : ∀ n : Nat, W.prims.int (showNat n) = some (n : Int)) {cell : Str × List Str → FVal}
    (hc : ∀ p ∈ papers, ∀ f ∈ p, Means W.prims f.1 f.2 (cell f)) (title : Str → Str) (m : Int) (nice : Bool) :
    ∃ (inOrder : List Paper) (key : Paper → Str), inOrder.Perm papers ∧ (∀ p ∈ papers, KeyOf title true nice cell p (key p)) ∧
      bib W before order title m true nice (fileText origin papers) = some (.ok (preamble ++ inOrder.flatMap (fun p =>
        "\n\n".toList ++ wosText (key p) (authors p) (p.map (fun f => (f.1, asValue (cell f))))), none)) := by
  have hperm := FileFrames.in_order (papers := papers) h
  refine ⟨_, fun p => Model.BibEntry.bibID title true nice (seen nice cell p), hperm, fun p _ => key_of title true nice cell p, ?_⟩
  rw [bib_eq before h hf hint hc]
  rw [BibEntry.C65_file title m true false nice _ (((order (papers.map toRec)).map Model.Wos.Rec.fields).map (fun p =>
    wosText (Model.BibEntry.bibID title true nice (seen nice cell p)) (authors p) (p.map (fun f => (f.1, asValue (cell f)))))) (by
      generalize ((order (papers.map toRec)).map Model.Wos.Rec.fields) = l
      rw [List.map_map, List.map_map]
      apply List.map_congr_left
      intro p _
      show Model.BibEntry.bibString title m true false nice (seen nice cell p) = _
      rw [BibEntry.C65_wos_entry title m false nice _ rfl, authors_seen]; rfl)]
  rw [List.flatMap_map, first_lines]

end
/-! ## A file -/

/-- A paper with quotes in its title, a month, a year and a tag that is not known, and one with only a name. -/
def file : List Paper :=
  [[("PT".toList, ["J".toList]), ("AF".toList, ["Lovelace, Ada".toList, "Byron, B.".toList]), ("TI".toList, ["On \"{weaving}\"".toList, "engines".toList]),
    ("SO".toList, ["Notes".toList]), ("PD".toList, ["MAY 5".toList]), ("PY".toList, ["2001".toList]), ("U1".toList, ["3".toList]), ("UT".toList, ["WOS:1".toList])],
   [("AF".toList, ["Byron, B.".toList]), ("UT".toList, ["WOS:2".toList])]]

theorem file_ok : FileOk w.ws "FN Clarivate".toList file where
  each := by
    intro p hp
    simp only [file, List.mem_cons, List.not_mem_nil, or_false] at hp
    rcases hp with rfl | rfl <;>
    exact {
      fields := ⟨by
        intro f hf
        have : ∀ f ∈ file.flatten, f.1.length = 2 ∧ f.1 ≠ "ER".toList ∧ f.1 ≠ "  ".toList ∧ f.2 ≠ [] ∧ '\n' ∉ f.1 ∧ ∀ v ∈ f.2, '\n' ∉ v := by decide +kernel
        obtain ⟨a, b, c, d, e, g⟩ := this f (List.mem_flatten.2 ⟨_, by simp [file], hf⟩)
        exact ⟨a, b, c, d, e, g⟩, by decide +kernel⟩
      noCR := by decide +kernel
      ut := by decide +kernel
      noJ9 := by decide +kernel
      first := by
        intro f hf
        obtain rfl := Option.some.inj hf
        first | exact ⟨by decide, 'P', by decide, by decide⟩ | exact ⟨by decide, 'A', by decide, by decide⟩ }
  different := by decide +kernel
  origin := by decide +kernel

def cellIn (f : Str × List Str) : FVal :=
  if f.1 = "AF".toList ∨ f.1 = "U1".toList then .texts f.2
  else if f.1 = "TI".toList then .text ([' '].intercalate f.2)
  else if f.1 = "SO".toList then .text "NOTES".toList
  else if f.1 = "PD".toList then .num 5
  else if f.1 = "PY".toList then .num 2001
  else .text (f.2.headD [])

theorem cell_in : ∀ p ∈ file, ∀ f ∈ p, Means w.prims f.1 f.2 (cellIn f) := by
  intro p hp f hf
  have hf' : f ∈ file.flatten := List.mem_flatten.2 ⟨p, hp, hf⟩
  simp only [file, List.flatten_cons, List.flatten_nil, List.append_nil, List.cons_append, List.nil_append, List.mem_cons, List.not_mem_nil, or_false] at hf'
  rcases hf' with rfl | rfl | rfl | rfl | rfl | rfl | rfl | rfl | rfl | rfl
  · exact .first _ _ _ (by decide)
  · exact .names _ _ (by decide)
  · exact .text _ _ (by decide)
  · exact .upper _ _ (by decide)
  · exact .month "MAY".toList " 5".toList [] 5 (by decide +kernel) (by decide) (by decide) (.inr (.inl ⟨_, rfl⟩))
  · exact .year 2001 [] (by decide) (by decide)
  · exact .unknown _ _ (fun name h => absurd ((WosFields.C69_every_tag _).1 ⟨name, h⟩) (by decide +kernel))
  · exact .first _ _ _ (by decide)
  · exact .names _ _ (by decide)
  · exact .first _ _ _ (by decide)

theorem entry_infix (pre sep : Str) (g : Paper → Str) {l : List Paper} {p : Paper} (hp : p ∈ l) {s : Str} (hs : s <:+: g p) : s <:+: pre ++ l.flatMap (fun p => sep ++ g p) := by
  obtain ⟨x, y, rfl⟩ := List.append_of_mem hp
  rw [List.flatMap_append, List.flatMap_cons]
  refine hs.trans ⟨pre ++ x.flatMap (fun p => sep ++ g p) ++ sep, y.flatMap (fun p => sep ++ g p), by simp⟩

/-- The entry of the first paper is in the file. -/
example : ∃ text : Str, bib w (fun _ => [.item "PY"]) List.reverse id 1000 false false (fileText "FN Clarivate".toList file) = some (.ok (text, none)) ∧
    ("@misc{ WOS:1,\n    author = {{Lovelace, Ada and Byron, B.}},\n    PT = \"J\",\n    AF = \"Lovelace, Ada and Byron, B.\",\n" ++
      "    TI = {On \"\\{weaving\\}\" engines},\n    SO = \"NOTES\",\n    PD = \"5\",\n    PY = \"2001\",\n    U1 = \"3\",\n    UT = \"WOS:1\",\n}").toList <:+: text := by
  obtain ⟨l, key, h1, h2, _, h4⟩ := C128_plain (fun _ => [.item "PY"]) setting file_ok Derived.int_ok cell_in id 1000 (by decide +kernel) false
  refine ⟨_, h4, entry_infix _ _ _ (h1.mem_iff.2 (List.getElem_mem (l := file) (n := 0) (by decide))) ?_⟩
  have hk : key file[0] = "WOS:1".toList := h2 _ (List.getElem_mem _)
  rw [hk]
  decide +kernel

/-- In the style of Web of Science with nice keys: the key has the author, the year, the month and words of the title. -/
example : ∃ (text key : Str), bib w (fun _ => []) List.reverse id 1000 true true (fileText "FN Clarivate".toList file) = some (.ok (text, none)) ∧
    "LovelaceAda-2001-5-".toList <+: key ∧ ("@misc{ ".toList ++ key ++ ",\nauthor = {{Lovelace, Ada and Byron, B.}},\nPT = {{J}},\nAF = {{Lovelace, Ada\n   Byron, B.}},\n".toList) <:+: text := by
  obtain ⟨l, key, h1, h2, h4⟩ := C128_wos (fun _ => []) setting file_ok Derived.int_ok cell_in id 1000 true
  refine ⟨_, key file[0], h4, ?_, entry_infix _ _ _ (h1.mem_iff.2 (List.getElem_mem (l := file) (n := 0) (by decide))) ?_⟩
  · obtain ⟨body, b1, b2⟩ := h2 file[0] (List.getElem_mem _)
    have hb : "LovelaceAda-2001-5-".toList <+: body := by
      rcases b2 with ⟨b3, _⟩ | ⟨_, ws, k, _, _, b4, b5, b6, _⟩
      · exact absurd b3 (by decide +kernel)
      · rw [b6]
        have hh : niceHead id cellIn file[0] = "LovelaceAda-2001-5".toList := by decide +kernel
        rw [hh]
        obtain ⟨a, as, rfl⟩ := List.exists_cons_of_ne_nil (l := ws) (fun e => by rw [e] at b5; simp at b5; omega)
        obtain ⟨j, rfl⟩ : ∃ j, k = j + 1 := ⟨k - 1, by omega⟩
        rw [List.take_succ_cons, List.flatMap_cons]
        exact ⟨a ++ (as.take j).flatMap (fun w => '-' :: id w), by simp⟩
    rw [b1]
    split
    · exact hb.trans (List.prefix_append _ _)
    · exact hb
  · generalize key file[0] = k0
    refine List.IsPrefix.isInfix ⟨("TI = {{On \"{weaving}\" engines}},\nSO = {{NOTES}},\nPD = {{5}},\nPY = {{2001}},\nU1 = {{3}},\nUT = {{WOS:1}},\n}").toList, ?_⟩
    unfold wosText
    simp only [List.append_assoc]
    refine congrArg ("@misc{ ".toList ++ ·) (congrArg (k0 ++ ·) ?_)
    decide +kernel

end Verif.Props.FileBib
