import Verif.Py.Str

/-!
# The tags of Web of Science and Medline records and their names

The first table is taken from the headings "The XX Tag" in the documentation of the tag functions (WOS/tagProcessing/tagFunctions.py),
and so not from the table the program uses. The second lists the tags of Medline, leaving out the two tags whose name another tag has as well.
-/
set_option autoImplicit false
namespace Verif.Spec.TagTable
open Verif.Py

/-- Tags of Web of Science with their names. -/
def wos : List (String × String) :=
  [("PT", "pubType"), ("AF", "authorsFull"), ("GP", "group"), ("BE", "editedBy"), ("AU", "authorsShort"), ("BA", "bookAuthor"), ("BF",
   "bookAuthorFull"), ("CA", "groupName"), ("ED", "editors"), ("TI", "title"), ("SO", "journal"), ("SE", "seriesTitle"), ("BS",
   "seriesSubtitle"), ("LA", "language"), ("DT", "docType"), ("CT", "confTitle"), ("CY", "confDate"), ("HO", "confHost"), ("CL",
   "confLocation"), ("SP", "confSponsors"), ("DE", "authKeywords"), ("ID", "keywords"), ("AB", "abstract"), ("C1", "authAddress"), ("RP",
   "reprintAddress"), ("EM", "email"), ("RI", "ResearcherIDnumber"), ("OI", "orcID"), ("FU", "funding"), ("FX", "fundingText"), ("CR",
   "citations"), ("NR", "citedRefsCount"), ("TC", "wosTimesCited"), ("Z9", "totalTimesCited"), ("PU", "publisher"), ("PI", "publisherCity"),
   ("PA", "publisherAddress"), ("SC", "subjectCategory"), ("SN", "ISSN"), ("EI", "eISSN"), ("BN", "ISBN"), ("J9", "j9"), ("JI",
   "isoAbbreviation"), ("PD", "month"), ("PY", "year"), ("VL", "volume"), ("IS", "issue"), ("PN", "partNumber"), ("SU", "supplement"),
   ("SI", "specialIssue"), ("MA", "meetingAbstract"), ("BP", "beginningPage"), ("EP", "endingPage"), ("AR", "articleNumber"), ("PG",
   "pageCount"), ("WC", "subjects"), ("DI", "DOI"), ("D2", "bookDOI"), ("GA", "documentDeliveryNumber"), ("UT", "wosString"), ("PM",
   "pubMedID")]

/-- Tags of Medline with their names. -/
def medline : List (String × String) :=
  [("AB", "Abstract"), ("CI", "CopyrightInformation"), ("AD", "Affiliation"), ("IRAD", "InvestigatorAffiliation"), ("AID",
   "ArticleIdentifier"), ("AU", "Author"), ("AUID", "AuthorIdentifier"), ("FAU", "FullAuthor"), ("BTI", "BookTitle"), ("CTI",
   "CollectionTitle"), ("CN", "CorporateAuthor"), ("CRDT", "CreateDate"), ("DCOM", "DateCompleted"), ("DA", "DateCreated"), ("LR",
   "DateLastRevised"), ("DEP", "DateElectronicPublication"), ("DP", "DatePublication"), ("EN", "Edition"), ("FED", "Editor"), ("EDAT",
   "EntrezDate"), ("GS", "GeneSymbol"), ("GN", "GeneralNote"), ("GR", "GrantNumber"), ("IR", "Investigator"), ("FIR", "InvestigatorFull"),
   ("ISBN", "ISBN"), ("IS", "ISSN"), ("IP", "Issue"), ("TA", "JournalTitleAbbreviation"), ("JT", "JournalTitle"), ("LA", "Language"),
   ("LID", "LocationIdentifier"), ("MID", "ManuscriptIdentifier"), ("MHDA", "MeSHDate"), ("MH", "MeSHTerms"), ("JID", "NLMID"), ("RF",
   "NumberReferences"), ("OABL", "OtherAbstract"), ("OCI", "OtherCopyright"), ("OID", "OtherID"), ("OT", "OtherTerm"), ("OTO",
   "OtherTermOwner"), ("OWN", "Owner"), ("PG", "Pagination"), ("PS", "PersonalNameSubject"), ("FPS", "FullPersonalNameSubject"), ("PL",
   "PlacePublication"), ("PHST", "PublicationHistoryStatus"), ("PST", "PublicationStatus"), ("PT", "PublicationType"), ("PUBM",
   "PublishingModel"), ("PMC", "PubMedCentralIdentifier"), ("PMCR", "PubMedCentralRelease"), ("PMID", "PubMedUniqueIdentifier"), ("RN",
   "RegistryNumber"), ("NM", "SubstanceName"), ("SI", "SecondarySourceID"), ("SO", "Source"), ("SFM", "SpaceFlightMission"), ("STAT",
   "Status"), ("SB", "Subset"), ("TI", "Title"), ("TT", "TransliteratedTitle"), ("VI", "Volume"), ("VTI", "VolumeTitle"), ("CIN",
   "CommentIn"), ("EIN", "ErratumIn"), ("EFR", "ErratumFor"), ("CRI", "CorrectedRepublishedIn"), ("CRF", "CorrectedRepublishedFrom"),
   ("DDIN", "DatasetIn"), ("DRIN", "DatasetUseReportedIn"), ("PRIN", "PartialRetractionIn"), ("PROF", "PartialRetractionOf"), ("RPI",
   "RepublishedIn"), ("RPF", "RepublishedFrom"), ("RIN", "RetractionIn"), ("ROF", "RetractionOf"), ("UIN", "UpdateIn"), ("UOF", "UpdateOf"),
   ("SPIN", "SummaryForPatients"), ("ORI", "OriginalReportIn")]

/-- `t` is a tag of Web of Science with the name `n`. -/
def Wos (t n : Str) : Prop := (t, n) ∈ wos.map (fun p => (p.1.toList, p.2.toList))

/-- `t` is a tag of Medline with the name `n`. -/
def Medline (t n : Str) : Prop := (t, n) ∈ medline.map (fun p => (p.1.toList, p.2.toList))

end Verif.Spec.TagTable
