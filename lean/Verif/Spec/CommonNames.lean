/-!
# The common names of the fields of a record

The names every kind of record understands, and the field of each file format that holds them.
-/
set_option autoImplicit false
namespace Verif.Spec.CommonNames

/-- Medline. The address of a record is that of its first author and needs two fields. -/
def medline : List (String × String) :=
  [("title", "TI"), ("abstract", "AB"), ("journal", "JT"), ("j9", "TA"), ("keywords", "OT"), ("authorsShort", "AU"), ("authorsFull", "FAU"),
   ("year", "DP"), ("month", "DP"), ("volume", "VI"), ("beginningPage", "PG"), ("DOI", "AID"), ("grants", "GR")]

/-- Scopus. -/
def scopus : List (String × String) :=
  [("title", "Title"), ("abstract", "Abstract"), ("journal", "Source title"), ("j9", "Abbreviated Source Title"), ("keywords", "Index Keywords"),
   ("authorsShort", "Authors"), ("authorsFull", "Authors"), ("year", "Year"), ("volume", "Volume"), ("beginningPage", "Page start"),
   ("citations", "References"), ("id", "EID")]

/-- ProQuest. -/
def proQuest : List (String × String) :=
  [("title", "Title"), ("abstract", "Abstract"), ("keywords", "Identifier / keyword"), ("authorsShort", "Author"), ("year", "Degree date")]

/-- The names a citation of a record is made from. -/
def cited : List String := ["authorsShort", "year", "j9", "title", "volume", "beginningPage", "DOI"]

/-- The names a citation of a Scopus record is made from. -/
def citedScopus : List String := ["authorsShort", "title", "year", "journal", "volume", "beginningPage"]

end Verif.Spec.CommonNames
