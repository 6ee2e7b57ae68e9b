import Verif.Model.BibEntry

/-!
# Entries of bib files

Only the types of the model are used: a record is what `bibString` reads of it, a value is a string, a list or something else given by its `str`.
-/
set_option autoImplicit false
namespace Verif.Spec.BibEntry
open Verif.Py Verif.Model.Bib Verif.Model.BibEntry

/-- The lines an entry must have: the type and the key, one line for the authors, one for each field, and the closing brace. -/
def entryLines (key : Str) (authors : Str) (fields : List (Str × Str)) : List Str :=
  ("@misc{ ".toList ++ key ++ ",".toList) :: ("    author = {{".toList ++ authors ++ "}},".toList) ::
    (fields.map (fun p => "    ".toList ++ p.1 ++ " = ".toList ++ p.2 ++ ",".toList) ++ ["}".toList])

/-- The key that a reader of bib files takes: what stands between the opening and the first comma. -/
def readKey (s : Str) : Str := (s.drop "@misc{ ".length).takeWhile (fun c => c ≠ ',')

/-- The authors of an entry: all names with ` and ` in between. -/
def authorsOf (r : Rec) : Str :=
  match r.authorsFull with
  | some l => List.intercalate " and ".toList l
  | none => "None".toList

/-- The fields that all kinds of records are meant to have (`metaknowledge.commonRecordFields`), in their order. -/
def common : List Str :=
  ["year".toList, "volume".toList, "beginningPage".toList, "DOI".toList, "address".toList, "j9".toList, "citations".toList, "grants".toList,
    "selfCitation".toList, "authorsShort".toList, "authorsFull".toList, "title".toList, "journal".toList, "keywords".toList, "abstract".toList,
    "id".toList]

/-- The fields an entry must list: all, or those of the common ones that the record has, in the order of the common ones. -/
def Listed (restricted : Bool) (r : Rec) (l : List (Str × Value)) : Prop :=
  if restricted then l.Pairwise (fun a b => [a.1, b.1].Sublist common) ∧ ∀ k v, (k, v) ∈ l ↔ k ∈ common ∧ r.field k = some v
  else l = r.items

/-- A value in the style of WOS: the second and later members of a list have lines of their own, indented by three blanks. -/
def wosValue : Value → Str
  | .str s => s
  | .other s => s
  | .list l => List.intercalate "\n   ".toList l

/-- A field in the style of WOS, with double braces, on a new line. -/
def wosField (p : Str × Value) : Str := "\n".toList ++ p.1 ++ " = {{".toList ++ wosValue p.2 ++ "}},".toList

/-- An entry in the style of WOS. -/
def wosText (key : Str) (authors : Str) (fields : List (Str × Value)) : Str :=
  "@misc{ ".toList ++ key ++ ",\nauthor = {{".toList ++ authors ++ "}},".toList ++ fields.flatMap wosField ++ "\n}".toList

/-- The first part of a nice key: the first author with capitals, without blanks, commas and dots, then the year and the month. -/
def keyHead (title : Str → Str) (r : Rec) : Str :=
  (match r.authorsFull with
    | some (a :: _) => (title a).filter (fun c => c ≠ ' ' ∧ c ≠ ',' ∧ c ≠ '.')
    | _ => []) ++
  (match r.year with
    | some y => '-' :: y
    | none => []) ++
  (match r.month with
    | some m => '-' :: m
    | none => [])

end Verif.Spec.BibEntry
