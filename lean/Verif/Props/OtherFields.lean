import Verif.Model.OtherFields
import Verif.Props.WosFields

/-! # C71: the values of the columns of a Scopus record and of the fields of a ProQuest record -/
set_option autoImplicit false
set_option linter.unusedSimpArgs false
namespace Verif.Props.OtherFields
open Verif.Py Verif.Model.OtherFields
open Verif.Model.WosFields (VErr Prims line0)
open Verif.Props.WosFields (ascii join_eq split_intercalate intercalate_split)

theorem kind_of (P : Prims) {tag : Str} {k : SKind} (h : scopusKinds.get? tag = some k) (val : Str) : scopusValue P tag val = processScopus P k val := by
  unfold scopusValue; rw [h]

/-! ## Scopus -/

/-- The columns that are lists separated by `'; '`. -/
def scopusLists : List Str :=
  ["Authors with affiliations", "Author Keywords", "Index Keywords", "Tradenames", "Manufacturers", "Correspondence Address", "ISBN",
   "Language of Original Document"].map String.toList

/-- Lists of a Scopus record are recovered from the text of the column: authors separated by `', '`, the others by `'; '`, sponsors by `';'`, and grants
and references are made from the pieces between `'; '`. -/
theorem C71_scopus_lists (P : Prims) (items : List Str) (hne : items ≠ []) :
    ((∀ p ∈ items, ¬ ", ".toList <:+: p) → scopusValue P "Authors".toList (", ".toList.intercalate items) = .ok (.texts items)) ∧
    ((∀ p ∈ items, ';' ∉ p) → scopusValue P "Sponsors".toList ([';'].intercalate items) = .ok (.texts items)) ∧
    ((∀ p ∈ items, ¬ "; ".toList <:+: p) →
      (∀ tag ∈ scopusLists, scopusValue P tag ("; ".toList.intercalate items) = .ok (.texts items)) ∧
      scopusValue P "Funding Details".toList ("; ".toList.intercalate items) = .ok (.grants items) ∧
      scopusValue P "References".toList ("; ".toList.intercalate items) = .ok (.cites items)) := by
  refine ⟨fun h => ?_, fun h => ?_, fun h => ⟨fun tag htag => ?_, ?_, ?_⟩⟩
  · rw [kind_of P (k := .commaList) (by decide)]
    exact congrArg _ (congrArg _ (split_intercalate ',' ' ' (by decide) items hne h))
  · rw [kind_of P (k := .bareSemiList) (by decide), ← join_eq]
    exact congrArg _ (congrArg _ (Str.split_join_char ';' items hne h))
  · have hk : scopusKinds.get? tag = some .semiList := by revert tag; decide
    rw [kind_of P hk]
    exact congrArg _ (congrArg _ (split_intercalate ';' ' ' (by decide) items hne h))
  · rw [kind_of P (k := .grants) (by decide)]
    exact congrArg _ (congrArg _ (split_intercalate ';' ' ' (by decide) items hne h))
  · rw [kind_of P (k := .citations) (by decide)]
    exact congrArg _ (congrArg _ (split_intercalate ';' ' ' (by decide) items hne h))

/-- Whatever the column holds, the pieces put together are its text, so nothing is lost. -/
theorem C71_scopus_lossless (P : Prims) (tag : Str) (htag : tag ∈ scopusLists) (val : Str) :
    ∃ items, scopusValue P tag val = .ok (.texts items) ∧ items ≠ [] ∧ "; ".toList.intercalate items = val := by
  have hk : scopusKinds.get? tag = some .semiList := by revert tag; decide
  exact ⟨_, kind_of P hk val, Str.split_ne_nil _ _, intercalate_split [';', ' '] val (by simp)⟩

/-- Years and counts are the integers written in the column, `ValueError` if it is none; titles, identifiers and the like are the text. -/
theorem C71_scopus_values (P : Prims) (val : Str) :
    (∀ tag ∈ ["Year", "Page count", "Cited by", "Conference code"].map String.toList,
      (∀ n, P.int val = some n → scopusValue P tag val = .ok (.num n)) ∧ (P.int val = none → scopusValue P tag val = .error .valueError)) ∧
    (∀ tag ∈ ["Title", "Source title", "Volume", "Issue", "Art. No.", "Page start", "Page end", "DOI", "Link", "Affiliations", "Abstract",
      "Molecular Sequence Numbers", "Chemicals/CAS", "Editors", "Publisher", "Conference name", "Conference date", "Conference location", "ISSN", "CODEN",
      "PubMed ID", "Abbreviated Source Title", "Document Type", "Source", "EID"].map String.toList, scopusValue P tag val = .ok (.text val)) := by
  constructor
  · intro tag htag
    have hk : scopusKinds.get? tag = some .integer := by revert tag; decide
    rw [kind_of P hk]
    show (∀ n, _ → (match P.int val with | some n => Except.ok (SVal.num n) | none => .error VErr.valueError) = _) ∧
      (_ → (match P.int val with | some n => Except.ok (SVal.num n) | none => .error VErr.valueError) = _)
    constructor
    · intro n hn; rw [hn]
    · intro hn; rw [hn]
  · intro tag htag
    have hk : scopusKinds.get? tag = some .string := by revert tag; decide
    rw [kind_of P hk]; rfl

/-- Any other column is a `KeyError`. -/
theorem C71_scopus_unknown (P : Prims) (tag val : Str) : scopusValue P tag val = .error .keyError ↔
    tag ∉ ["Authors", "Sponsors", "Funding Details", "References", "Year", "Page count", "Cited by", "Conference code", "Title", "Source title", "Volume",
      "Issue", "Art. No.", "Page start", "Page end", "DOI", "Link", "Affiliations", "Abstract", "Molecular Sequence Numbers", "Chemicals/CAS", "Editors",
      "Publisher", "Conference name", "Conference date", "Conference location", "ISSN", "CODEN", "PubMed ID", "Abbreviated Source Title", "Document Type",
      "Source", "EID"].map String.toList ++ scopusLists := by
  have hk : ∀ t, t ∈ scopusKinds.keys ↔ t ∈ ["Authors", "Sponsors", "Funding Details", "References", "Year", "Page count", "Cited by", "Conference code", "Title",
      "Source title", "Volume", "Issue", "Art. No.", "Page start", "Page end", "DOI", "Link", "Affiliations", "Abstract", "Molecular Sequence Numbers",
      "Chemicals/CAS", "Editors", "Publisher", "Conference name", "Conference date", "Conference location", "ISSN", "CODEN", "PubMed ID",
      "Abbreviated Source Title", "Document Type", "Source", "EID"].map String.toList ++ scopusLists := by
    intro t
    constructor <;> (revert t; decide +kernel)
  rw [← hk]
  unfold scopusValue
  cases h : scopusKinds.get? tag with
  | none => simp only [true_iff]; rw [← Dict.get?_eq_none_iff]; exact h
  | some k =>
    have hm : tag ∈ scopusKinds.keys := by
      by_contra hc
      rw [← Dict.get?_eq_none_iff, h] at hc
      cases hc
    simp only [hm, not_true, iff_false]
    cases k <;> simp only [processScopus] <;> try (intro e; cases e)
    split <;> (intro e; cases e)

/-- A name with a comma in the list of authors is cut in two. -/
theorem C71_scopus_author_cut (P : Prims) : scopusValue P "Authors".toList "Smith, J., Doe A.".toList =
    .ok (.texts ["Smith".toList, "J.".toList, "Doe A.".toList]) := rfl

/-! ## ProQuest -/

/-- The fields of one line. -/
def oneLine : List Str :=
  ["Author", "Title", "Advisor", "Name", "Committee member", "Copyright", "Country of publication", "Database", "Degree", "Degree date",
   "Department", "Dissertation/thesis number", "Document type", "Language", "Number of pages", "Place of publication", "ProQuest document ID",
   "Publication year", "School code", "Source", "Source type", "University location", "University/institution", "ISBN",
   "Publication subject"].map String.toList

theorem oneLine_eq : singleLineEntries = oneLine := rfl

/-- The fields of one line are that line. -/
theorem C71_proquest_single (tag : Str) (htag : tag ∈ oneLine) (v : Str) (rest : List Str) : proQuestValue tag (v :: rest) = .ok (.text v) := by
  unfold proQuestValue; rw [oneLine_eq, if_pos htag]; rfl

/-- Fields that are neither of one line nor a list in one line are all their lines, and asking for a field the record does not have is a `KeyError`. -/
theorem C71_proquest_other (R : Dict Str (List Str)) (tag : Str) :
    (∀ val, R.get? tag = some val → tag ∉ oneLine → tag ∉ ["Classification", "Identifier / keyword", "Subject"].map String.toList →
      proQuestItem R tag = .ok (.texts val)) ∧
    (R.get? tag = none → proQuestItem R tag = .error .keyError) := by
  constructor
  · intro val h h1 h2
    simp only [List.map_cons, List.map_nil, List.mem_cons, List.not_mem_nil, or_false, not_or] at h2
    unfold proQuestItem
    rw [h]
    dsimp only
    unfold proQuestValue
    rw [oneLine_eq, if_neg h1, if_neg h2.1, if_neg h2.2.1, if_neg h2.2.2]
  · intro h
    unfold proQuestItem; rw [h]

theorem notSingle : "Classification".toList ∉ singleLineEntries ∧ "Identifier / keyword".toList ∉ singleLineEntries ∧ "Subject".toList ∉ singleLineEntries ∧
    "Abstract".toList ∉ singleLineEntries := by decide

/-- Subjects, keywords and classifications are recovered from the first line. -/
theorem C71_proquest_lists (items : List Str) (hne : items ≠ []) (rest : List Str) :
    ((∀ p ∈ items, ¬ "; ".toList <:+: p) → proQuestValue "Subject".toList ("; ".toList.intercalate items :: rest) = .ok (.texts items)) ∧
    ((∀ p ∈ items, ¬ ", ".toList <:+: p) → proQuestValue "Identifier / keyword".toList (", ".toList.intercalate items :: rest) = .ok (.texts items)) := by
  constructor
  · intro h
    unfold proQuestValue
    rw [if_neg notSingle.2.2.1, if_neg (by decide), if_neg (by decide), if_pos rfl]
    exact congrArg _ (congrArg _ (split_intercalate ';' ' ' (by decide) items hne h))
  · intro h
    unfold proQuestValue
    rw [if_neg notSingle.2.1, if_neg (by decide), if_pos rfl]
    exact congrArg _ (congrArg _ (split_intercalate ',' ' ' (by decide) items hne h))

/-- A classification is a list of pairs of a code and a name. -/
theorem C71_proquest_classification (pairs : List (Str × Str)) (hne : pairs ≠ []) (rest : List Str)
    (hc : ∀ p ∈ pairs, ¬ ": ".toList <:+: p.1 ∧ ¬ ": ".toList <:+: p.2) (hs : ∀ p ∈ pairs, ¬ "; ".toList <:+: p.1 ++ ": ".toList ++ p.2) :
    proQuestValue "Classification".toList ("; ".toList.intercalate (pairs.map fun p => p.1 ++ ": ".toList ++ p.2) :: rest) =
      .ok (.tuples (pairs.map fun p => [p.1, p.2])) := by
  unfold proQuestValue
  rw [if_neg notSingle.1, if_pos rfl]
  show Except.ok (QVal.tuples ((Str.split [';', ' '] ([';', ' '].intercalate (pairs.map fun p => p.1 ++ ": ".toList ++ p.2))).map (Str.split [':', ' ']))) = _
  rw [split_intercalate ';' ' ' (by decide) _ (by simpa using hne) (by
    intro p hp
    obtain ⟨q, hq, rfl⟩ := List.mem_map.1 hp
    exact hs q hq), List.map_map]
  refine congrArg _ (congrArg _ (List.map_congr_left fun p hp => ?_))
  have := split_intercalate ':' ' ' (by decide) [p.1, p.2] (by simp) (by
    intro q hq
    simp at hq
    rcases hq with rfl | rfl
    · exact (hc p hp).1
    · exact (hc p hp).2)
  simpa [List.intercalate] using this

/-- The names shared by all records: short authors, keywords, abstract, year and title come from their fields. -/
theorem C71_proquest_special (R : Dict Str (List Str)) :
    proQuestSpecial R "authorsShort".toList = proQuestItem R "Author".toList ∧ proQuestSpecial R "keywords".toList = proQuestItem R "Identifier / keyword".toList ∧
    proQuestSpecial R "abstract".toList = proQuestItem R "Abstract".toList ∧ proQuestSpecial R "year".toList = proQuestItem R "Degree date".toList ∧
    proQuestSpecial R "title".toList = proQuestItem R "Title".toList := ⟨rfl, rfl, rfl, rfl, rfl⟩

/-- But the full authors of every ProQuest record are the word `Author`, whatever the record says, and its first page is 0. -/
theorem C71_proquest_authorsFull (R : Dict Str (List Str)) :
    proQuestSpecial R "authorsFull".toList = .ok (.text "Author".toList) ∧ proQuestSpecial R "beginningPage".toList = .ok (.num 0) := ⟨rfl, rfl⟩

/-- The year of a ProQuest record is a text, where the other records have an integer. -/
theorem C71_proquest_year (R : Dict Str (List Str)) (v : QVal) (h : proQuestSpecial R "year".toList = .ok v) : ∃ s, v = .text s := by
  have h1 : proQuestItem R "Degree date".toList = .ok v := h
  unfold proQuestItem at h1
  cases hr : R.get? "Degree date".toList with
  | none => rw [hr] at h1; cases h1
  | some val =>
    rw [hr] at h1
    cases val with
    | nil => cases h1
    | cons a rest =>
      have := C71_proquest_single "Degree date".toList (by decide) a rest
      dsimp only at h1
      rw [this] at h1
      exact ⟨a, (Except.ok.inj h1).symm⟩

/-! ## The hypotheses can be met -/

example : proQuestItem [("Abstract".toList, ["One.".toList, "Two.".toList])] "Abstract".toList = .ok (.texts ["One.".toList, "Two.".toList]) :=
  (C71_proquest_other _ _).1 _ rfl (by decide) (by decide)
example (P : Prims) : scopusValue P "Shelf".toList "a".toList = .error .keyError := (C71_scopus_unknown _ _ _).2 (by decide)

example : scopusValue ascii "Author Keywords".toList "networks; text;mining".toList = .ok (.texts ["networks".toList, "text;mining".toList]) :=
  ((C71_scopus_lists ascii ["networks".toList, "text;mining".toList] (by decide)).2.2 (by decide)).1 _ (by decide)

example : proQuestValue "Classification".toList ["0451: Social psychology; 0626: Sociology".toList] =
    .ok (.tuples [["0451".toList, "Social psychology".toList], ["0626".toList, "Sociology".toList]]) :=
  C71_proquest_classification [("0451".toList, "Social psychology".toList), ("0626".toList, "Sociology".toList)] (by decide) [] (by decide) (by decide)

example : proQuestSpecial [("Degree date".toList, ["2010".toList]), ("Author".toList, ["Doe, Alex".toList])] "year".toList = .ok (.text "2010".toList) := rfl

end Verif.Props.OtherFields
