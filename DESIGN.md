# Formal model of metaknowledge: design

## Layout

* `lean/Verif/Py/*` – the Python notions the model needs: strings as `List Char`
  (`split`, `join`, `strip`, slicing), insertion-ordered dictionaries, results with exceptions.
* `lean/Verif/Model/*` – the code, function by function. Every definition cites the file and lines it models.
* `lean/Verif/Spec/*` – small specifications, written without reference to the model's helpers.
* `lean/Verif/Lemmas/*` – helper lemmas.
* `lean/Verif/Props/*` – the property theorems (named `Cnn_…`), each with an `example` showing that its
  hypotheses are met by a non-trivial case.
* `tools/check_tables.py` – compares the tag tables of the model with the dictionaries in /repo (read as text, not run by the build).

## Modelling conventions

* Python `str` is `List Char` (code points). Names that the code only compares are an arbitrary type with decidable equality.
* A Python `set` is a duplicate-free list; the order of the list is the iteration order.  Python does not fix it, so
  theorems quantify over all lists, and results that must not depend on it are proved invariant under permutation.
  `set.pop` takes the choice as an argument, and theorems quantify over all choices.
* A Python `dict` is an association list in insertion order with distinct keys.
* A networkx graph is a node dictionary and an edge dictionary; undirected edges are looked up in both orientations.
  A multigraph (networkx 2) has a key with every edge; looking an edge up with its two ends only raises `ValueError`.
* Exceptions are values (`Except`/`Option`), never a default result.
* pandas/matplotlib output, network download and pickling are not modelled (pickle is an abstract store for the
  cache property). Progress bars are left out of the functions that show them, except where the bar can change the
  outcome: `localCiteStats` (C22) and the functions that write edge and node lists (C92).

## Plan per property

| id | modelled | proof |
|----|----------|-------|
| C01–C03 | `Collection` operators with name, bad flag, errors | membership characterisations; counterexample for lost errors |
| C04, C05 | chunk/split loops, pop schedule explicit | induction on the iteration; partition spec |
| C06, C07 | id methods | induction over the iteration order |
| C08 | cache file as abstract record, file system as map path→mtime, loads interrupted by changes of files | case analysis, induction over the file list; an invariant over histories of loads, changes and damages; the race between reading and recording times |
| C09–C11 | counting loops over records | fold = multiset count; sortedness; dense rank spec |
| C12–C18 | networkx graph model, network constructors | fold invariants: weight = sum over records of pair counts |
| C19, C20 | filter loops | `List.filter` with independent predicate |
| C21–C24 | record filters | membership characterisations |
| C25 | rpys loops over integers | window median spec, rank spec |
| C26, C27 | table builders, copyright splitting | length/cell invariants |
| C28 | memo table | history induction |
| C29–C34 | parsers and writers on lists of lines | parse∘write = id, totality |
| C35 | formatter | negation with witness, partial |
| C36, C37 | citation parsing as an explicit matcher for the regex | grammar-directed proof |
| C38–C43 | graph helpers, CSV layer | filter characterisations, sums, round trip |
| C44 | database files as dictionaries, the session's cache beside them | the file contents after any history are computed by an independent "last write" spec; lookups reduced to it |
| C60 | page reader as a scan over lines | induction over the lines, against "names listed under the abbreviation" |
| C45, C46 | diffusion loops | counting |
| C47 | tag tables as literal lists | whole finite table by `decide`, lifted |
| C48–C52 | grants | history induction |
| C53 | name lookup (`split`, database as dictionary), tallies per record, fractions in `Rat` | tally = cardinality of a filtered finite set, three-way partition |
| C54 | prepString, prepTime, the lines of the bar and the last line; times and parts are rational numbers, the test with the logarithm is a parameter known up to 1% | arithmetic on lengths, bounds of rounding, logarithm to base 10 by powers |
| C55 | detection chain | first match |
| C57 | forBurst loop, shared with forNLP | list induction; the words left over are proved equal to a specification about words (`Spec/Words.lean`): cutting at white space, drop lists, case, cleaning, stemmer |
| C58 | Medline file reader and writer | run lemma per record, induction over the records |
| C59 | Scopus file reader and writer | cell lemma, induction over columns and records |
| C61 | writeCSV with the columns, cells, rows and split files; csv writer with QUOTE_ALL and reader as state machines (Py/CsvAll) | reader inverts writer for any delimiter and quote; dictionary lemmas for rows; invariant 'file of s = header and rows for s' over records and values |
| C62 | the methods of Collection again, with sets, types and errors in a store under addresses (CollectionHeap) | invariant: no two collections have an address in common; refinement to a list of values |
| C63 | citations as values with a key (ID), attributes and text; the filter loop, countsDict, the row loop over any order of the set | the filter loop is a filter of the concatenation; the dictionary of counts holds countP of each key; the sum over distinct keys by induction over the citations; fractions as exact rationals |
| C64 | hash, __eq__ with NotImplemented, the == operator with the reflected call and the identity fallback, insertion into sets, the class table | case analysis on the subclass relation; induction over the insertions from the right |
| C65 | bibString with both styles, nice keys, the restriction; writeBib's loop with its exception clause | split of a join gives the lines back; loop lemma for the words; induction over the records |
| C66 | Model/ExpandCore.lean: expandRecs with the loop over edges of a growing graph, its RuntimeError as a value; a record is the list of the IDs of its author citations | induction over the edges copied, the later authors, the authors and the records: keeps, nodes, links, bound on links, weights; witnesses for the four departures |
| C67 | Model/Nsf.lean: the three loops of parserNSFfile on the XML tree, AttributeError as a value; NSFGrant's id | the last loop acts on each name separately (induction), then closed forms for leaves, lists, investigators and organisations; equivalence for the failure |
| C68 | Model/CsvGrants.lean: csv.reader fed line by line, DictReader, the two generators with and without PEP 479, the two grant classes, the detectors | reading by lines equals reading the text (induction over the text), line numbers increase so ids differ, closed form of a row's dictionary, detectors as equivalences |
| C69 | Model/WosFields.lean: tagToFunc as a table of bodies, getMonth, authAddress, year | Props/WosFields.lean: values stated with List.intercalate on the lines; splitting is inverse to joining; negations with witnesses |
| C70 | Model/MedlineFields.lean: medlineTagToFunc, AD, AUID and the special functions, the regex of year written out | Props/MedlineFields.lean: dictionaries of the last line per author; search for the first digits; negations |
| C71 | Model/OtherFields.lean: the tables of Scopus and ProQuest | Props/OtherFields.lean: lists recovered, constants of ProQuest |
| C72 | Model/Glimpse: header, entry, column widths, table, terminal size; ranked values and the time are inputs | column widths sum up by induction over the columns with the remainder as invariant; every cell has its width; splitting the joined text gives the lines back; small terminal raises, for all collections |
| C73 | Model/ProQuestFile: both loops of proQuestParser over the lines, and the set into which the records are put; Spec/ProQuestFile: the format of the file | iff with the format, by induction along the reader; every outcome classified (StopsAt, RaisesAt), stray lines characterised |
| C74 | Model/DiffusionTables: the loops that turn the counts of C45 into columns, and the loops over the nodes of the graph | each row appends once to each column (induction over rows), the rows from C45_count and C45_extra; when a source has the extra field itself its column gets two entries a row (C74_columns_collide); the local counts with an extra field are looked up under the field's name (C74_tag_extra, C74_local_zero) |
| C75 | Model/NodeInfo: makeNodeTuple branch by branch, the dictionary from citations to records, allButDOI | case analysis; the joined values are split back with split_join since none has a comma; the dictionary gives the last record with the citation |
| C76 | Model/GraphStats: graphStats block by block, degree-0 nodes and self loops of the graph, and {:G} of a natural number (six significant digits) | each block appends one entry or none; split_join for lines; digits of {:G} by cases on n < 1000000 |
| C77 | the string createCitation builds, the Scopus pattern run by the backtracking matcher, the mending of bad citations | soundness of the matcher fixes the groups before the year, completeness gives a match, first choices fix the groups after it; multiCite proved bad in general |
| C78 | records as dictionaries of addresses of lists, with a memo; reads, copies and in-place changes as operations on a shared memory (Model/RecordHeap) | an ownership invariant (a list in the memory is a raw list nobody changes, or belongs to one tag of one record), by induction over the program; for tags whose value is the raw list itself the negation, in general |
| C79 | Model/MdToNb: the line loop of convertString as a state machine (number, kind, buffer, cells), the regular expression through Py/Regex, stringPreprossesing and the source list of a cell | invariant over the lines: lines of emitted cells plus buffer = content of the lines read so far, code buffers = runs; a decoder of lists of JSON strings (Spec/MdToNb.jtext) gives the source back; negations by computation and, for the last line, in general |
| C80 | Model/Cli: getThresholds with inputMenu and getNum as an automaton over the lines typed, calling the models of dropEdges and dropNodesByDegree | induction over the lines: the graph is related to the given one by the chain of filters a separate parser finds in the lines (Spec/Cli); each filter by C38 and C39; negations in general and by computation |
| C81 | Model/Cli: getOutputName, yesorNo and the loop of outputNetwork as automata over the lines typed | induction over the lines, the lines read are split into name, unclear answers and yes; negation for --name in general |
| C82 | Model/CollectionAdd: __add__ with the loops of add, __bytes__ as texts | induction over the elements added; equality with the model of writeFile, then C30 |
| C83 | Model/CiteText: ID, Extra with its loop and slice, allButDOI, str, on the parsed citations of Model/CiteParse | the loop is a join; the parts from the hand-written reader proved equal to the regular expression (C36) |
| C84 | Model/CollectionAdd: findProbableCopyright over the abstracts | induction over the abstracts; C27 for single abstracts |
| C85 | Model/GrantNetwork: the loop over the grants with the argument targetTags threaded through it | C85_alone_partial and C85_order_partial without a list or for grants that do not add to it; C85_nserc_list_partial: NSERC grants and a list; C85_nsf_list, C85_nsf_self, C85_order_matters, C85_leaks: what goes wrong |
| C86 | Model/RecordAccess.lean: the special functions of the four classes as programs that read other tags and fill the memo | From the memo invariant of C28: after any history an access is an access without memo; then the tables are compared with Spec/CommonNames.lean. ProQuest's `authorsFull` is the word `Author` for every record and `beginningPage` always 0 (C86_proQuest) |
| C87 | Model/CliRun: inputMenu with int, Tag, getNetwork, getWhatToDo, outputNetwork and getFiles as functions of the lines typed; networks and files are named by the call that makes them | each dialogue is exact for a relation between answers and lines typed (Spec/CliRun), composed through bind; both directions; files and citations by membership |
| C88 | Model/CliRun: the loop of option 7 over Model/JournalDB, with the named and the default database | induction over the citations with the loaded abbreviations as state; the fresh session is reduced to the loaded one |
| C89 | networks with a tag for the edges: networkx multigraphs (`Py/MultiGraph`), the four constructors with edgeAttribute (`Model/NetworkAttrs`) | each constructor is a run of events on a multigraph; weight of an edge = sum over records of pairs times occurrences of the key; errors by induction over the records |
| C90 | lists of node attributes as places that nodes point to, shared between nodes first met in one record | fold invariant: the list of a node is that of its first record, and holds the values of the records of all nodes with the same first record |
| C91 | Model/CollectionMixed: the branches of the constructors for iterables and for nothing, iterables that can be run through once or again, Python's dispatch of the operators to the methods of the classes and to those inherited from `collections.abc.Set` | constructors: exact members, name and exceptions for stored iterables, emptiness for iterators; operators and comparisons: exact result for each combination of operands; disagreements below |
| C92 | Model/ProgressThread: the bar and its thread as two programs over shared attributes, interleaved step by step in any way; what writeEdgeList and writeNodeAttributeFile do with their bars | an invariant over all reachable states: pictures written, what the thread has at hand, what the main program has still to write, and that it writes only when the thread has ended; a measure for the waiting; a run without end for bars that are not closed |
| C93 | `Model/CliSession`: `mkCLI` as the composition of the dialogues of `CliRun` and `Cli` on one list of lines and one changing file system (paths → contents); readers, network makers and writers are parameters that may raise; the end of the input is an EOF or an interrupt. | Spec `Session`: which lines are typed for what and how the files change. C93_session (normal ends), C93_ends (converse), C93_only_named (frame), C93_agreed_partial (overwriting), C93_left (quit/interrupt), C93_status (disagreement). |
| C94 | Model/OptionLists: the in-place changes of makeDict, writeCSV and forNLP and series of calls on one list, over the tables and files of C26, C27, C61 | a call depends on the list by its translation (or by what is left without built-in columns) only, which further calls leave alone; induction over the series; for first columns an invariant (tags once in the list stay) gives the general failure |
| C95 | Model/YearDiff.lean: addToNetwork and networkCitation again with both edge attributes | refinement to Model/CiteNetworks by forgetting the attribute; the edge after any series of links is given by the first and the number of them, by induction; with C36 for the years of good citations; failures by witnesses |
| C96 | Model/SeriesFiles.lean: the text of each file as a function of the collection (rankedFile, timeFileTag, timeFileRecords, burstFile, nlpFile), with the csv writer of Py/CsvMin.lean (QUOTE_MINIMAL, excel dialect). | Round trip of the writer and the reader of Py/CsvAll.lean for every table of strings (CsvMin.read_rows); then C09, C10, C27 and C57 give the rows. Repeated extra columns: concrete witness. Windows: CsvMin.read_windows. |
| C97 | Model/CiteProfile.lean: the loop of networkCoAuthor with profiles as objects in a heap (the shallow copy of the attributes shares them); Spec/CiteProfile.lean: what a profile should say (fair) and what it says (shared). | Simulation of the loop by a sequence of visits; the profile of an author is the fold over all visits of authors with the same first record. Exact numbers for every author, the fair ones for authors who come alone and first, refutation for two co-authors, and equality of the rest of the network with C15's. |
| C98 | GraphPaths: file names from `os.path` operations (Py/Path), a file system of locations; texts from GraphFiles | path walk is invariant under normpath and abspath (induction over parts), frame and injectivity of names |
| C99 | `Model/WriteFile`: `RecordCollection.writeFile` over a file system of bytes (`Py/Codec`: UTF-8 and Latin-1), the record writers as their sequences of `write` calls, default names of collections read from files and directories | which file changes and that nothing else does (`C99_one_file`, `C99_default`, `C99_source`); write-then-detect-then-read round trips for the three sources through bytes (`C99_wos`, `C99_medline`, `C99_scopus`); the text for any mixture (`C99_text`); what is left after a failure (`C99_stop`, `C99_stop_wos`, `C99_not_latin`); and the disagreements `C99_unmarked_wos`, `C99_unmarked_scopus`, `C99_operators`, `C99_union_lost`, `C99_garbled`, `C99_directory` |
| C100 | `Model/MdToNbFiles`: the whole text of `convertString`, `convert` and `mkMdToNb` over a file system; `Spec/Json` gives JSON values, their tokens and a scanner, `Spec/Notebook` the expected notebook and its place | scanning composes over the pieces of the template and over the cells by induction (`C100_notebook_partial`), JSON is unambiguous (`C100_json_unique`); files by induction over the arguments (`C100_all`, `C100_stop`, `C100_missing`, `C100_one`); disagreements `C100_own`, `C100_collision`, `C100_no_json` |
| C101 | `Model/Plotting.lean`: the loop over the nodes of `quickVisual`, with the types as an arbitrary type with equality; result is the colour argument handed to networkx | induction over the nodes; the list of noted types is the list of distinct types in order of appearance (`typesBefore` in `Spec/Plotting.lean`) |
| C102 | `Model/Plotting.lean`: scaling, rounding, Python indexing and counting of `graphDensityContourPlot`; rational coordinates, matplotlib and the gaussian blur left out | induction over the positions; cells are specified as nearest integers (`Nearest` in `Spec/Plotting.lean`), counts by the list of cells, sums over the grid |
| C103 | `Model/CacheRace`: each load as a program of single system calls (test, open, read or write a byte, remove) on a cache file with names and numbered files, any number of programs, kills | invariants over all interleavings; the interleavings that go wrong are built for every world, not for one |
| C104 | the models of the reader, of field access with its memo, of tag processing, of citation parsing and of the graph functions put together (Model/Pipeline); a file is written down as a list of papers (Spec/Pipeline) | composition: the file text parses to the papers (C30's lemmas with any origin line), reading does not depend on the history (C28), the value of each tag (C69), then C15, C16, C12, C09; sums do not change under the permutation of the set |
| C105 | iterators as states (tags to come, what was given, the exception), a program as a list of reads, starts and steps (Model/RecordMapping) over the model of field access | invariant by induction over the actions: every iterator has given a prefix of the fields with their values; uses soundness of the memo from C28. The law of membership fails (C105_contains_wrong), so C105_contains_partial has the hypothesis that no processing raises KeyError |
| C106 | Model/J9Files: file system, working directory, named databases and a server answering request by request | induction over the pages with the first failing one; paths by Lemmas/Paths; the recursion of getj9dict by an invariant (the named database stays empty) |
| C107 | `Model/GenderData.lean`: the file of names that stays between sessions, its download with any fate, reading it as CSV, the table of the session | Invariant over all histories of sessions (file and table are the American ones or missing); cut downloads by the stability of the file and reading a prefix of its rows |
| C108 | MedlinePipeline: the Medline reader, reading of a field after any reads, its processing, and networkCoAuthor, rankedSeries and networkOneMode put together | The file is read paper by paper (C32's lemmas); reads do not depend on the reads before (C28); C15, C12, C09 and C70 give the networks and tables in the words of the file |
| C109 | `Model/ScopusPipeline` puts together the models of reading (Scopus), processing (OtherFields), access under names after any earlier reading (RecordAccess) and counting (CoNetworks, Series, Networks, CiteNetworks); a file is a list of papers with cells (`Spec/ScopusPipeline`) | the reader of lines (C70) gives back the cells, the tables of columns give the kind of each, then C15, C09, C12, C16 on the values |
| C110 | as C109, with writeFile | the written file is the file of the requoted papers in some order; then the theorems of C109 on both files |
| C111 | `Model/ProQuestPipeline` puts together the models of reading (ProQuestFile), records (ProQuest), processing (OtherFields), access under names (RecordAccess) and counting (CoNetworks, Series, Networks); a file is lines with the layout of `Spec/ProQuestFile`, whose documents are dicts of labels (`Spec/ProQuestPipeline`) | the reader gives the documents (C73), the tables of labels give the kind of each, then C15, C09, C13 and C12 count; for co-authors the claim is false and the letters are computed |
| C112 | `Model/MergeNetworks`: the networks of the other models as graphs with dictionaries of attributes, and the loop that merges the networks of the parts | the closed forms of C12–C17 and C49 are sums over the records, C40 adds them up; induction over the parts. Sameness of graphs is in `Spec/MergeNetworks` |
| C113 | Pipeline.rewritten, resaved: reading, writing, reading … over the whole pipeline of C104 | C113_saved by induction over the savings: the written text is the text of a file of the same papers in some order; then the theorems of C104 and the independence of order |
| C114 | MedlinePipeline.rewritten, resaved: reading, writing, reading … over the whole pipeline of C108 | C114_saved_partial by induction over the savings: what is written is the text of papers whose entries are put together by tag, with the same values under every tag that does not belong to an author; then the theorems of C108. C114_addresses_double: 2^n addresses after n savings when an author is listed twice; C114_addresses_kept, C114_records_kept: they are kept where no author is listed twice and none comes before the first author |
| C115 | Model/ScopusPipeline.lean (resaved) over Spec/ScopusPipeline.lean | Props/ScopusSaved.lean: induction over the savings with C110_rewritten (writing is idempotent up to the order of the papers); records, networks and rankings by order independence (C12, C09) and C28; closed forms over any number of savings by C109 |
| C116 | metaknowledgeDocsGen.py character by character, with what inspect says about the package as input (Model/DocsGen.lean): sorting by place, tables, entries, pages, the single file | when a run ends as an equivalence for the pages and for the single file; the list of pages; each page shows a permutation of the public functions or methods, sorted by place, each with a row and an entry; order kept for line numbers with equally many digits, negated otherwise; links and anchors of the single file negated in general |
| C117 | cleanedDoc with the greedy pattern for links as a backtracking matcher, docLine, cleanargs (Model/DocsGen.lean) | a docstring made of lines with links that stand apart is shown as the specification says, by the first match of the pattern at each link; arguments from the splitting of the text; negations for joined links, an empty quoted line and arguments with self in them |
| C118 | `Model/WhoCites.lean`: `createCitation` from what is read of a record, and the citation, coupling and co-citation networks of the records of a file; `Spec/WhoCites.lean`: references, how they are written and the label of a work | a reference line reads as the work with its label (C36, C37), a record's own citation is the line of its reference, then C17, C18 and C16 |
| C119 | `Model/ScopusWhoCites.lean`: `ScopusRecord.createCitation` from what is read of a record, and the citation, coupling and co-citation networks of the records of a Scopus file; `Spec/ScopusWhoCites.lean`: references, how they are written and the label of a work | the own citation of a record is the line of its reference and reads as its label (C77), then C17, C18 and C16 (`Lemmas/FileCites.lean`); negation: what is read of an entry with a comma in the name keeps the comma, which the label never has |
| C120 | Model/LocalCites: reading the file, making the citation of each record (one, or one per author) and parsing those of its CR field, then localCitesOf, localCiteStats or diffusionCount as modelled for C22, C23 and C45 | C69/C88 give what is read of each record, C118's lemmas that a paper's own citation and its reference lines get the same name, then the abstract results of C22, C23 and C45 are restated on the lines of the file; the sum over sources collapses because accession numbers differ |
| C121 | Model/Derived: expressions over texts of files with the four operators (Collection), yearSplit and dropNonJournals (RecordFilters), year and type read as for C104 | induction over expressions with the invariant that the collection has just the records of the described papers of the pool; then a reordering of the records of the file of the chosen papers gives the same list, and C104 applies; sums over windows split |
| C122 | Model/FileTables on top of Model/Pipeline, Model/Series, Model/Networks and Model/Rpys; Spec/FileTables (what papers have under a tag, how often a year is cited) | The readings of every record are computed from the file, then C13, C10, C11 and C25 are applied and their counts rewritten as counts over the papers, whatever the order of the records |
| C123 | Model/CiteParse (parseScopus with the pattern of citation.py:63 in the backtracking matcher of Py/Regex), Spec/ScopusEntry (the form of a reference, what stands for it) | m_sound on the part of the pattern up to the year (every match takes the same author, year and rest), m_complete for existence of a match, greedy repetition for journal, volume, issue and pages; the id is injective because names and years have no commas; the two failures by soundness of the matcher |
| C124 | Model/OtherTables: one function for each kind of table over any kind of records, used for Medline, Scopus and ProQuest files read as in C108, C109, C111; references as in C123 | Lemmas/OtherTables: each table for records that stand for papers in any order, from C10, C11, C13, C25; then what each kind of file gives under a name |
| C125 | Model/FileExports: the reader of Model/Pipeline followed by Model/WriteCsv and Model/Tables.forBurst, with the tables of tag names of Model/TagNames | C104 (values), C69 (processing), C61 (csv) and C57 (words) composed; the order of the set is a permutation |
| C126 | Model/NetworkFiles: the networks of Model/Pipeline and Model/FileTables given attribute dictionaries, then Model/GraphHelpers.dropEdges, Model/GraphFiles.writeGraph and readGraph | C104/C122 give the network, C38 the edges left, C43 the round trip; the edges of what is read are stated in terms of the papers |
| C127 | Model/FileFrames: the reader of Model/Pipeline, then Model/Tables.makeDict and forNLP on what is read | values from C69 through Spec/WosMeaning.Means, which covers every tag; columns by C26 and C27; words by C27_abstract_words, statements by C27_copyright_statement |
| C128 | Model/FileBib: the reader of Model/Pipeline, RecordMapping.items, then Model/BibEntry.writeBib | Spec/FileBib.Means says what the lines of every tag mean (C69 for each tag); items by C105_items; keys by C65_nice_key; entries by C35 and C65 |
| C129 | Model/MedlineFrames: the reader of Model/MedlinePipeline, then Model/Tables.makeDict on what is read, with the table of long names of Web of Science as the code has it | values by Spec/MedlineFrames.Means and C70; columns by C26; that the common names and the long names are lost is proved for every file |
| C130 | Model/ScopusFrames: the reader of Model/ScopusPipeline, then Model/Tables.forNLP on what is read, without extra columns | values by C109_reading; columns by C27; the abstract is read under a tag of Web of Science, which no Scopus record has, and nothing stays nothing under every option |
| C131 | Model/ScopusDict: the reader of Model/ScopusPipeline, then Model/Tables.makeDict on what is read; the counts of genders are left open | values by C109_reading and C71; columns by C26; the keys of a record are the columns its paper has something in; the names of columns are looked up in the table of Web of Science |

Properties the code violates are stated, refuted with a concrete witness and kept with a `_partial` theorem that says what does hold.
See "Disagreements" below.

## Disagreements between code and property

Each is proved, by a general theorem or by a concrete witness.

* C03: the binary operators (`|`, `&`, `-`, `^`) keep only the errors of the right operand (`mkCollection.py`), so errors of the left are lost.
* C01 (remark): `<=` and `>=` compare the number of entries, not inclusion.
* C08: a file changed between being read and having its modification time recorded is served with its old contents from then on (`C08_race`); a grant directory cache lists the cache file itself among the files read on the next run, so the second cached load raises; and a
  cache file cut short by a crash raises `EOFError`, which the loader does not catch.
* C09: with `pandasFriendly` the order is always descending, `greatestFirst = False` is ignored.
* C11: `cooccurrenceCounts` builds a `TagError` when no counted tag is given but does not raise it.
* C13, C14: a node whose first record has no value under the second tag (only one tag with values) is added without a count, so it
  ends one count short (or without a count), and the result depends on the order of the records.
* C13, C14: a node that occurs under two tags should have both as its type; with counting it has the tag of its first counted occurrence,
  in two-mode networks without counting that of its first occurrence (C13_types_exact, C13_types_wrong, C14_types_exact).
* C14: without `nodeCount` the type of a node is the concatenation of one tag per occurrence.
* C15, C49: the `count` of a node grows by k for the k-th name a record lists, so it is the number of papers only for names that are
  always listed first.
* C16, C19: a Scopus citation that could not be read has no `author`/`journal`/`year` attribute; it passes `filterCites` and the network
  call then raises `AttributeError`.
* C17: `recordToCite=False` is ignored for unweighted full citations; weighted with another node type adds the edge in the wrong direction;
  unweighted with another node type raises `UnboundLocalError` (`yearDiff`). A record whose identifying string is empty joins its
  citations to each other. Node counts depend on whether the first mention of a work is as a citing record.
* C20: an abbreviation stored without full names makes `isJournal` raise `IndexError`.
* C22: a Scopus citation that could not be read makes `localCiteStats` with a key other than `citation` raise `AttributeError`.
* C23: `localCitesOf` raises `ValueError` for a `Record`, and a citation given as a string is looked up as a record ID and never parsed,
  so it finds nothing.
* C24: in `citeFilter` a citation whose tested field is `None` stops the search of its record, hiding later matches; an empty or
  non-numeric key with field `year` raises `ValueError`; field `anonymous` ignores the key.
* C25: citations of the year before the citing record (and of the same year) are not counted, although the documentation says a year's count
  is the number of times it was cited; `dropYears` given as an `int` raises `TypeError`; a default bound outside 1001–2099 raises
  `TypeError`; a missing bound with nothing to count raises `ValueError`.
* C28: a record with fields under both names of a tag (`J9` and `j9`, `IS` and `ISSN`) answers differently depending on which name was read
  first, since the memo is shared. Returned lists are the memoised objects, so a caller who changes one changes later answers.
* C47: `isTagOrName` is case sensitive although `normalizeToTag` is not. The Medline table repeats `Editor` and `OtherAbstract`, so the tags
  `ED` and `OAB` have no long name of their own.
* C26: a tag selected by the user that is named `num-Authors` (or as a gender column) makes that column twice as long as the others.
* C27: an extra column named twice is twice as long as the others. A word of the drop list directly following another occurrence of itself
  stays in the text, since both share one space.
* C39: `dropNodesByDegree` counts only the edges that leave a node in a directed graph; and after the call degrees can be out of range, since
  they are taken before nodes are dropped (the documentation says otherwise).
* C40: when a shared node or edge lacks the incremented value on either side the added graph's attributes overwrite the target's, although
  the target is documented to have precedence; a false `incrementedEdgeVal` raises `AttributeError`.
* C41: negative degrees are counted from the end of the degree distribution (Python's negative indices).
* C43: files keep only text, so numbers come back as strings and missing attributes as empty strings; `edgeInfo=False` raises
  `UnboundLocalError` and `allSameAttribute=True` raises `AttributeError` for every graph that has an edge (a node or an edge).
* C30: `writeFile` on an empty collection raises `AttributeError`.
* C31: `wosParser` returns from its `finally` clause, which discards unexpected exceptions: a line indented by three spaces where a record should
  start ends the reading with no error and loses the rest of the file. After a line shorter than three characters the remaining lines of the
  record are read as another record. The error of a damaged record is replaced by "Missing WOS number".
* C32: a Medline author listed twice has the attached fields (AD, AUID) written for both, so a second reading doubles them; an author value of two lines, or attached fields before any author, lose those fields when written.
* C58: a line of at most three letters inside a Medline entry raises `IndexError` out of the reader and all records are lost; a file without a final line end loses the last character of its last value; a file cut between entries reads without an error.
* C33: a Scopus value with a comma that starts with `$`, `|` or a comma makes the line splitter run into the columns before it; the record is lost (bad, without fields); so does a value that starts with a single quote. Which values come back is characterised exactly (C33_exact). A line without a line end loses its last character. An absent column is written as an empty one, which is then present.
* C59: a Scopus file whose columns are in another order than the known one is read in the known order, so values end up under the wrong names.
* C34: a line of running text that has a colon (`at 12:30`, `https://...`) starts an entry of its own, so it is lost to the value it belongs to (`C34_colon_in_text`); a text line right after the name or the url raises `KeyError`, which neither the record nor the file reader catches (`C34_key_error`).
* C35: `_bibFormatter` with a length limit keeps only full pieces: a value longer than the limit loses its last `length mod limit` characters (mkRecord.py:769-790); a value may be lost entirely; the limit 0 raises. The property is false; `C35_truncates` states what is kept.
* C48 remark: `csvAndLinesReader` calls `next` inside a generator. Since Python 3.7 the `StopIteration` at the end of the file becomes a `RuntimeError`, which `parserNSERCfile` catches: the grants are returned, but every file is reported as bad. Not part of the model, which begins with the rows.
* C48 disagreement: rows without a key are hashed by their values; updating such a grant while it is in the set changes its hash, after which it is no longer found. `grants.remove` may then raise `KeyError` while a directory is read (`C48_unreadable`). It does not if no file has two keyless rows with the same values (`C48_readable`). And a key equal to the hash of a keyless line mixes the two grants up (`C48_clash`).
* C50: a Medline grant string with a leading slash and one without give the same fields (`C50_medline_ambiguous`), and the id of a Medline grant ignores the agency. A Scopus string of more than three pieces loses the first ones (`C50_scopus_lost`).
* C51: `NSFGrant.getInvestigators` appends to the list of tags it is given, so the caller's list grows with each call (`C51_nsf_list_grows`). An empty separator raises.
* C54: for widths below 6 `prepString` returns more than n characters when the string has to be cut (`C54_narrow`).
* C55 remark: any file with `VR 1.0` in its first three lines is taken for a Web of Science file, even if a later detector would also accept it (`C55_medline_taken_for_wos`).
* C36: with the year 0 (or an author of full stops only) the id of a citation depends on what follows the journal, because the id of a bad citation leaves out false values (`C36_not_determined`). Bad citations with different attributes may be equal (`C36_bad_collision`). `misc` keeps only one character of what follows, since its pattern is lazy and nothing has to match after it (`C36_misc_lost`).
* C37: the citation of a record is misread if the first author has one letter (`C37_short_author`), if there is neither journal nor title (`C37_no_journal`), if the year is missing and the journal begins with a digit (`C37_no_year`), or if the title has a comma (`C37_comma_in_title`).
* C44: a session that has loaded the abbreviations does not see later `addToDB`/`excludeFromDB` calls (`C44_stale`). `Citation.addToDB` stores a string where a list of names is expected, so only the first character of the name is reported (`C44_cite_add`); with `invert` asking raises `IndexError` and the journal counts as not excluded (`C44_cite_invert`); before the abbreviations are loaded it raises `AttributeError` after the file was written (`C44_cite_unloaded`). `getj9dict("manual")` without a manual file fills it with the WOS names, which from then on override the WOS database (`C44_manual_missing`). `updatej9DB` never changes an existing entry.
* C45: if two source records have the same citation only the last one (in the order of iteration) gets the counts and the other is not listed at all (`C45_shared_citation`). `compareCounts` with `useAllAuthors = False` can raise `KeyError` (`C45_compare_error`).
* C46: with the default tags (`raw`) the nodes are the tags of the records, not the records, since iterating over a record gives its tags (`C46_raw_nodes`, `C46_raw_witness`); with a tag whose value is a string the nodes are its characters (`C46_string_witness`); with a tag whose value is a number the call raises `TypeError` (`C46_error`). Edges go from source to target although the documentation says from target to source. With `labelEdgesBy` a weighted graph never finds the edge to increment, so it has parallel edges of weight 1 (`C46_labels_weighted`). Sources that share a citation: the last wins.
* C53: a name listed twice in one record is counted once (`C53_repeated_name`), and a name whose entry in the database is none of the three values is not counted (`C53_other_value`); with no name counted at all the fractions raise `ZeroDivisionError`. `nameStringGender` with `noExcept = False` returns the exception instead of raising it.
* writeCSV appends the tags of the records to the list given as `firstTags` (and, without numAuthors, the gender columns): a second call with the same list writes the tags of the first collection, and the gender counts twice (`C61_first_tags_changed`, `C61_twice_counts`).
* writeCSV(longNames = True) with the default first tags always raises KeyError: 'id' is not a WOS tag (`C61_long_names_default`). splitByTag = '' raises UnboundLocalError and splitByTag = 'citations' TypeError (`C61_split_raises`). Values that agree in their first 200 characters are written to the same file, one over the other (`C61_shared_file`).
* C65 (nice keys): bibString with niceID gives records that differ only in their ID the same key once author, date and title make 30 characters, and keeps commas of title words in the key, which end the key for BibTeX (`C65_nice_collision`, `C65_nice_witness`).
* C65 (bad records): writeBib means to skip bad records (`except BadWOSRecord: pass`), but bibString raises BadRecord, the base class, so the first bad record ends writeBib, leaving an incomplete file (`C65_bad_record`). The documentation also promises the type article for journal articles and long names of fields; the code always writes misc and the tags.
* C64: records are compared by their hashes alone, so two IDs with the same hash make different records equal (`C64_collision`); a plain Record equals records of two sources that differ from each other (`C64_not_transitive_with_base`).
* C66 expandedCore: "edges will be created between each of the nodes for each record expanded" fails in an unweighted network for two citations that are there already; a record only whose later author's citation is in the network is not expanded; copied weights replace the ones that were there; every added node gets a link to itself; and an unweighted co-citation network can raise RuntimeError (dictionary changed size during iteration), `C66_raises`.
* C67 NSF awards: an element with parts after an element of the same name without parts makes parserNSFfile raise AttributeError, which is not caught (`C67_raises`, an equivalence); `<AwardID/>` gives the id NSF:None and a grant that is not bad (`C67_empty_id`); of repeated elements without parts only the last is kept (`C67_repeated_lost`).
* C68 csv grants: csvAndLinesReader lets StopIteration leave a generator; from Python 3.7 on (PEP 479) this is a RuntimeError, so parserNSERCfile, parserCIHRfile and parserFallbackGrantFile report an error for every file and every such GrantCollection is bad (`C68_error`). A row too short for the column PI Names has None there and is not bad. The ids contain hash(str), which differs from run to run (`C68_id_changes`).
* C69: nineteen WOS fields (document type, reprint address, conference date, ...) return `val[0]`, so anything on a continuation line is lost (`C69_continuation_lost`); `getMonth` returns the digits of a date such as `2010-05` as a string although an integer is documented, gives the year for the documented form `Year Month Day`, and its `ValueError` is unreachable: unknown months raise `KeyError` (`C69_month_not_a_number`, `C69_month_range`).
* C70: `AD` and `AUID` assign per author, so the second affiliation line of an author replaces the first (`C70_affiliation_lost`); the regex of `year` takes a hyphen for a minus sign (`C70_year_negative`); a Medline tag outside `medlineTagToFunc`, such as `ED`, is in the record but raises `KeyError` when read, whereas WOS records return the raw lines (`C70_unreadable`).
* C71: `proQuestSpecialTagToFunc['authorsFull']` is `lambda R : 'Author'`, without the record, so every ProQuest record has the full author `Author` (`C71_proquest_authorsFull`).
* C72: `glimpse(compact=True)` on a terminal with six rows and 55 to 75 columns computes -1 rows and raises IndexError (C72_small_raises). At a width of 76 or 77 the header uses four lines while the space was computed for three, so the table is one line longer. A tag name longer than its column pushes the heading line beyond the terminal (C72_long_title).
* C73: in `proQuestParser` only UnicodeDecodeError, StopIteration and ValueError are caught. A document whose number is not in the table of contents and a record with a line that continues nothing raise KeyError, and the records read so far are lost (C73_rest, C73_number_raises). Titles are compared after the record's were stripped at the end but the listed ones only lost one character, so a title with a blank at its end is refused (C73_trailing_blank). The records are put into a set: of two that are equal (same class and identifier, or both bad and with the same text) one is lost (C73_twin_lost).
* C74: diffusionCount(pandasFriendly = True, extraValue = f) for records appends both the target's value and the source's own field f to the column f, so its length is twice that of the others whenever a counted source has f (C74_columns_collide); pandas refuses such a dictionary.
* C74: with compareCounts and extraValue for a tag, line 330 looks the local count up under the name of the extra field, not its value, so SourceCount is 0 in every row (C74_tag_extra, C74_local_zero). diffusionAddCountsFromSource takes every item out of a countsDict whose keys are no strings, so the caller's dictionary is empty afterwards (C74_counts_emptied). It also calls nodes_iter, which only networkx 1 has, while recordCollection.py uses graph.nodes[...], which only networkx 2 has.
* C75: detailedCore = True asks for the year, but makeNodeTuple passes over values that are neither strings nor lists, so info never has the year of WOS records (C75_year_left_out). An asked field that is an empty list raises IndexError (C75_core_raises).
* C76: graphStats formats the numbers of nodes and edges with {:G}, so from 1000000 on the text is rounded to six digits: 1234567 and 1234568 nodes give the same text (C76_counts_rounded, C76_same_text).
* **C77** Scopus `createCitation` (recordScopus.py:107-164): a record with a page and no volume gets the volume `PP` and no page (`C77_page_as_volume`). With `multiCite` nothing separates author and title, so every citation is bad and has no author (`C77_multi_bad`).
* C78: copy() is documented as a completely decoupled copy, but the lists of the raw fields are shared (`_fieldDict.copy()` is shallow), and R['AU'], R['AF'], R['ED'], R['BE'], R['BA'], R['BF'] and unknown tags return the raw list itself. Appending to copy['AU'] changes the original's authors and what it writes to a file (C78_copy_shares, C78_wos_shares, C78_written_file_changes).
* C79: `stringPreprossesing` cuts 11 characters assuming that the text of a cell ends with a line end, so the last line of a file that does not end with one loses characters of the text (or of the JSON around it, giving an unreadable notebook); backslashes and control characters are not escaped.
* C80: 'Remove edges above some weight' and 'Remove nodes above some degree' pass their number as the minimum, so they keep exactly what they should remove; 'Drop isolates' uses the number of outgoing edges and drops all papers of a citation network that cite nothing in it; leaving the console opened with i ends the tool with a TypeError.
* C81: with --name, existing output files are overwritten without a question; the check for an empty name is made after the suffix is added and so accepts it.
* C82: the sum of two collections is never bad and has no errors, even when an operand has; |, which also forms the union, keeps those of the second operand.
* C83: Citation.Extra() reads the attribute DOI, which Scopus citations do not have: it raises AttributeError for every one of them. The lazy group of the WOS pattern takes a single character, so Extra() is ',' when anything stands between page and DOI.
* C85: `networkCoInvestigator` hands the same list of tags to every grant, and NSF grants append `Investigator` to it (NSERC grants their own tags). With a list of tags the k-th NSF grant is therefore read k times: everyone on it is linked to themselves and weights grow (`C85_nsf_list`, `C85_nsf_self`), the result depends on the order of the set (`C85_order_matters`), grants of other classes are searched for these tags too (`C85_leaks`), and the caller's list is changed.
* C47: `tagToFull` of an unknown tag does not raise `KeyError` but `TypeError`, since it raises a string (`C47_tagToFull`).
* C67: `parserNSFfile` of an XML file without an award raises `AttributeError` instead of returning an error (`C67_no_award`); `isNSFfile` keeps such files away.
* C55: `isProQuestFile` consumes the lines of a failed attempt, so a heading that starts in the second line is missed when the first line is the same line of underscores (C55_proquest_missed).
* C86: `ProQuestRecord['authorsFull']` is the string `'Author'` for every record (proquest/tagProcessing/specialFunctions.py, `lambda R : 'Author'`, where `R['Author']` must have been meant); `C86_proQuest` states it.
* C87: at every menu, leaving the console opened with i ends the tool with a TypeError (inputMenu returns None to int). Tags are put in upper case before they are looked up, so the tags of Scopus and ProQuest records that have small letters can not be chosen. Two blanks, a blank at the end, or an empty line when asked for files name the working directory, whose records are added.
* C88: when the user names a database, the journals to be skipped are written to the default database instead (the call passes no manualDB). A journal answered with no has the empty string in the loaded abbreviations, and the next citation of it raises an IndexError. A citation without a journal has the journal None, is asked for, and either answer raises a TypeError; the test for a missing attribute that should pass over it is only true for Scopus citations that could not be parsed.
* C31: a record with a line whose third character is not a space raises BadWOSFile inside the reader, which skips to the next ER and goes on; the record is neither returned as a bad record nor is an error reported.
* C89: networkMultiLevel and networkOneMode with edgeAttribute and weights look an edge of a MultiGraph up by its two ends (mkCollection.py:884-900), which networkx 2 refuses, so every repeated co-occurrence with the same value raises (C89_repeat_raises); the value of the tag is gone over without being put in a list, so a text gives its characters (C89_text_taken_apart) and a number raises (C89_number_raises). networkMultiMode never sets the values of the edges and raises NameError (C89_multi_mode).
* C90: with nodeAttribute the list made for a record is stored with every node first met in it (mkCollection.py:913-960), so what is added for one of them later shows with the others (C90_shared, C90_exact).
* C42: writeTnetFile documents that the attribute timeString of an edge is written to the time column. The name is never used: the key of the edge of a multigraph is written, and a graph that is no multigraph raises TypeError (C42_time_is_key).
* **C91.** `RecordCollection(it)` and `GrantCollection(it)` run through `it` to check the types and then through it again to make the set: made from a generator or another iterator the collection is empty (`C91_iterator_empty`). The operators inherited from `collections.abc.Set` make their results from generators, so `s | c`, `s & c`, `s - c` and `s |= c` with an ordinary set `s` give an empty collection (`C91_left_set`), and so does `|` with an empty collection of the other class on the left (`C91_other_class`). `c <= d` compares sizes (`C91_compare`). `GrantCollection(cached = True)` raises `UnboundLocalError` unless it reads a directory (`C91_cached`).
* **C92.** In verbose mode `writeEdgeList` and `writeNodeAttributeFile` make a progress bar without `with` and do not finish it when the graph has no edges or nodes, or when they raise (which `extraInfo = False` and `allSameAttribute = True` always do): the thread of the bar goes on writing its line until the interpreter ends (`C92_edge_list`, `C92_unclosed`).
* C93: `mkCLI` returns 1 at the end of a session, 0 after an interrupt and the exception after a failure, and is installed as a console script, which calls `sys.exit(mkCLI())`. A shell thus sees status 1 for every session that ends normally, the same as for one that fails, and 0 only for one that is quit or interrupted (`C93_status`).
* C94: makeDict and writeCSV put tags in place of long names in the caller's list (C94_left_alone) and raise TypeError for a tuple with a long name, although the documentation allows tuples (C94_tuple). forNLP takes the built-in columns out of the caller's list, so a call that selects them with the same list afterwards misses them (C94_nlp_shared). writeCSV(firstTags = l) without a selection leaves the tags of the collection in l, so files of other collections written with it get columns for them (C94_first_grows).
* C44: isJournal(returnDict = …) looks at its argument only while the abbreviations are not loaded; afterwards the choice is ignored (C44_choice_ignored), so one question to the manual database makes every journal of the WOS database unknown for the rest of the session (C44_choice_sticks).
* C95: `yearDiff` is written only when an edge is first added. `SMITH J, 2000` (no journal) and `SMITH J, , 2000` (no year, a journal called 2000) have the same id, so the attribute of the edge to that node is a number or `None` depending on which is cited first (`C95_order_matters`). A record without an identifying string joins the works it cites to each other without the attribute, and such an edge does not get one later (`C95_never_added`).
* C22: `localCiteStats` reads `R.UT` for the text of the progress bar (recordCollection.py:1434), an attribute only `WOSRecord` has. With `metaknowledge.VERBOSE_MODE`, which is the default on a terminal, the call raises `AttributeError` for a collection with a Scopus, PubMed or ProQuest record; without it the same call works (`C22_progress_raises`, `C22_raises_iff`). The other functions with a progress bar show only `str` of records and nodes and counts.
* C68: bad grants are compared by their values and error and not by id (mkRecord.py:101-104), so of several equal rows of a CIHR file without `PI Names` only one grant is kept (`C68_twin_lost`); equal rows with names are all kept.
* C96: forNLP(extraColumns = ['DI', 'DI'], outputFile = f) writes rows in which the DOI is that of another record: the column has two cells per record and the row number is used as the index (C96_nlp_repeated; see C27_duplicates_misaligned). forBurst writes no header, forNLP does. rankedSeries and timeSeries open the file without newline = '': on Windows every row of the file is followed by an empty one (C96_windows).
* C97: networkCoAuthor(citeProfile = True): attributeMaker makes one dictionary for the profile per record and detailedInfo.copy() is shallow, so all authors that are new in a record share one profile (recordCollection.py:1007, 1027-1047). A record by A and B followed by one by A alone puts the citations of the second into the profile of B, and counts each citation of the first three times for both (C97_two_authors; exact numbers in C97_profile).
* C98: `writeGraph` normalises the name first, so `out/` gives `out_edgeList.csv` and not `out/edgeList.csv` (C98_trailing_slash), the empty name gives `._edgeList.csv` (C98_no_name), and `~/../x` is `x` in the current directory (C98_home_parent); `edgeInfo=False` opens the edge list before it raises, so the old file is lost (C98_lost).
* C99: the operators `|`, `&`, `-` and `^` give collections that have noted no type, so `writeFile` on the union of two Web of Science collections writes no header and no `EF`, and the file is recognised by no reader (`C99_operators`, `C99_union_lost`; the same for Scopus, `C99_unmarked_scopus`). The in-place operators keep the types (`C99_noted`).
* C99: a collection read from a directory has a default name with slashes (`files-from-/path`), so `writeFile()` without a name raises `FileNotFoundError` (`C99_directory`). The documentation says the default name ends in `.isi`; it ends in `.txt` (`C99_default`).
* C99: a collection read from `stem.txt` in the current directory is by default written over that very file (`C99_source`), and a bad record then ends the writing with the rest of the file gone (`C99_stop`, `C99_stop_wos`).
* C99: a collection that has noted several types is written in UTF-8, but Medline files are read as Latin-1, so letters outside ASCII come back as others (`C99_garbled`); with one noted type a Medline record with a letter outside Latin-1 cannot be written at all (`C99_not_latin`).
* C100: an argument with the extension `.ipynb` is emptied before it is read, so that its contents are lost (`C100_own`); of `a.md` and `a.txt` only the later one gets a notebook (`C100_collision`); files without a final line end or with backslashes become files that are not JSON (`C100_no_json`).
* C101: `quickVisual` documents that nodes are coloured by type and refuses graphs in which some nodes have no type. It has eight colours and starts again after the eighth type (`C101_reused`), and the check `len(ndColours) > 1` lets every graph through in which at most one typed node comes before each untyped node; it is then drawn with fewer colours than nodes (`C101_short`, plotting.py:28). An empty graph raises ZeroDivisionError (`C101_empty`, plotting.py:22).
* C102: `graphDensityContourPlot` documents layouts in a square centred at the origin, and spring_layout makes such layouts, but the grid starts at the origin: a negative cell number is taken by numpy as counting from the other end, so nodes left of or below the origin are counted a whole grid away from where they are, together with nodes that lie there (`C102_square`, `C102_wrapped`, `C102_computed`, plotting.py:99, 108). Only layouts in the upper right quarter are counted as documented (`C102_quadrant_partial`).
* **C103**: `RecordCollection(dir, cached=True)` is not safe for several programs: the cache is written in place, so a load that comes while another writes raises `EOFError` or `UnpicklingError`-like exceptions that are not caught (`C103_half_written`); two loads that find an out-of-date cache both remove it and the second raises `FileNotFoundError` (`C103_removed_twice`); a program killed while writing leaves a cache on which every later load fails until a person removes it (`C103_killed`); two that write at once can leave any mixture of their bytes (`C103_mixed`), and if that unpickles, a later load silently gives it (`C103_wrong`).
* C105: `k in R` and `R[k]` disagree. `ExtendedRecord.__contains__` (mkRecord.py:319-334) only looks whether the field is there, but the processing of a field can raise `KeyError` itself (the month of a WOS record, WOS/tagProcessing/helpFuncs.py:20-23), so `'PD' in R` is true, the tag is listed, `R['PD']` raises `KeyError` and `R.get('PD', d)` gives the default (`C105_contains_wrong`). And one field that cannot be read ends `items()`, `values()` and `dict(R)` with its exception, so the fields behind it are not given (`C105_hidden`, the year `in press`).
* C106: updatej9DB(saveRawHTML = True) changes the working directory of the process to that of the saved pages and leaves it there, also when a download fails (C106_workdir_wrong); a package known by a relative path then does not find its own database (C106_relative_wrong). Each page's file is opened, and so emptied, before the page is asked for: a failing download destroys the page saved earlier that day (C106_interrupted). The URLError of the first round of requests is not caught, that of the second leaves as JournalDataBaseError with the advice to delete the database, because dbm.dumb.error is OSError (C106_unreachable); a page without a list raises IndexError, although the documentation promises an mkException (C106_unreadable_wrong). getj9dict for a name other than the default one whose database is missing or empty updates the default database instead and calls itself without end (C106_named_wrong, C106_named_forever).
* C107: nameGender.py writes the table of names straight to its place and afterwards only looks whether the file is there. A download that breaks off while writing leaves a part of the table for ever: names in the missing rows are `Unknown` in all later sessions without any sign (`C107_cut_wrong`), and if it breaks off at once (a damaged archive, a full disk) every question raises `StopIteration` for ever (`C107_empty_wrong`). `getMapping(useUK = True)` ignores its argument when there is a file (`C107_uk_wrong`), and if it made the download, all later answers for the American table come from the British one (`C107_uk_stays`).
* C110: writeFile writes a missing cell of a Scopus record as an empty cell in quotes, and such a cell is read as a value, the empty text. So after saving and reading, a paper without authors has an author with the empty name, which is a node of the co-author network (`C110_reread_wrong`), and a paper without a year makes rankedSeries('year') raise ValueError, where it was left out before (`C110_reread_years_wrong`). Proved instead (`C110_reread_partial`): the edges are the same and all nodes but the one with the empty name.
* C111: a co-author network of a ProQuest file is made of letters. The common name 'authorsFull' gives the word 'Author' for every record (C86), and networkCoAuthor walks the letters of that word: the nodes are A, u, t, h, o, r, joined as often as there are papers (`C111_coauthors_wrong`). With useShortNames the author is one text, and the nodes are the letters of the authors' names (`C111_coauthors_short_wrong`).
* C112: networks made part by part differ from those of the whole in these cases, each proved: counts of networkTwoMode and networkMultiMode, where a count can vanish altogether, since a node may come without one (`C112_two_mode_counts_wrong`, `C112_multi_mode_counts_wrong`); counts of networkCitation, where a record is counted once more for every part in which it first occurs as a citing one (`C112_citation_counts_wrong`); coreOnly, whose core is that of the part (`C112_core_wrong`); networkBibCoupling, which joins records of different parts (`C112_coupling_wrong`); and without counts the attributes of nodes are those of the last part although the target is said to take precedence (`C112_info_overwritten`).
* C114: when a Medline paper lists an author twice, each saving doubles the addresses (and identifiers) of that author: after n savings there are 2^n for each one, so that the files grow exponentially (C114_addresses_double). The writer (recordMedline.py:80-88) writes all addresses of a name behind each occurrence of the name.
* C116: metaknowledge-DocsGen orders entries by file name and line number as one text (metaknowledgeDocsGen.py:110), so line 10 comes before line 9 of the same file (C116_order_wrong).
* C116: with -single the entries of functions and methods still link to {{ site.baseurl }}{{ page.url }}, because singleFile is not passed on to writeFunc (metaknowledgeDocsGen.py:251, 285, 310; in line 251 it stands inside the brackets of format) (C116_single_links_wrong). Methods of the same name in two classes share one anchor, so the links of the second lead to the first (C116_single_anchor_wrong).
* C117: of two links without a blank between them only the second is rewritten, the pattern being greedy (metaknowledgeDocsGen.py:147, 149) (C117_joined_wrong); a docstring line that is a lone > raises IndexError and ends the run (metaknowledgeDocsGen.py:157) (C117_quote_wrong); an argument with self in its name loses it and is joined to the next (metaknowledgeDocsGen.py:123) (C117_self_wrong).
* C119: in a Scopus file no cited paper is ever recognised. The column Authors has "Nunez R.", and `createCitation` leaves commas out (recordScopus.py:107-165), so the paper stands in networks as "NUNEZ R., 1998, MATH COGNITION"; References have "Nunez, R., What? (1998) Math Cognition, 4", and the reading (citation.py:63, 72-103) keeps the comma: "NUNEZ, R., 1998, MATH COGNITION". So networkCitation of any Scopus file has no edge to a paper of the file, and networkCoCitation with coreOnly is empty (C119_not_found, for every file with references of this form).
* C123: `Citation(s, scopusMode = True)` reads the first parenthesis of the string as the one with the year. A reference whose title has a parenthesis is not read at all (bad, no author, year or journal, `C123_parenthesis`), and one whose title has a number of two to five digits in parentheses gets that number as its year and the rest of the title as its journal (`C123_first_year`).
* C126: weights written by writeGraph are read as text by readGraph (graphHelpers.py:84-90), so that dropEdges with a bound raises a TypeError on a network that was saved and read (C126_bounds_after_reading).
* C129: makeDict translates the chosen names with the table of Web of Science whatever the records are. For Medline records year, month, volume, beginningPage, DOI, j9, authorsFull, keywords, ISBN and ISSN become columns with the Web of Science tag and None for every paper, although the records have the values (C129_lost); journal becomes the source SO. With longNames and all tags it raises KeyError for every Medline file (C129_long_names).
* C130: forNLP reads the abstract under the Web of Science tag AB instead of the name common to all records. A Scopus record has no such tag, so the abstract and copyright columns of the table of a Scopus file are empty for every paper, although each record gives its abstract when asked for it (C130_abstract_lost).
* C131: makeDict looks the chosen names up in the table of long names of Web of Science, whatever the records are. DOI, ISBN and ISSN are columns of a Scopus file and also such long names, so asking for one of them gives a column DI, BN or SN with no value for any paper. The same happens with the names common to all records, such as title or year, although each record answers to them (C131_lost). Without a choice the columns are there (C131_all).
* C131: makeDict with longNames and without a choice of tags raises KeyError for every Scopus file with a paper in it, because the number of a paper has no long name in Web of Science (C131_long_names).

## Trusted base

* Lean 4.33.0's kernel, which accepts every proof. Compiled code is not trusted: no `native_decide`, `bv_decide`, `implemented_by` or `unsafe`.
* Axioms: no theorem depends on any but `propext`, `Classical.choice` and `Quot.sound` (Lean's own). The sets per theorem are listed below.
* That the definitions in `Verif/Model` and `Verif/Py` say what the Python does. This is checked by reading only: the code was not run. Every definition cites
  the lines it models and says where it simplifies.
* That the statements in `Verif/Props`, with `Verif/Spec`, say what the property says. They were tested with wrong programs (`seeded/LOG.jsonl`).
* What Python, networkx, pandas and the operating system do, as written down in `Verif/Py`: insertion order of dictionaries, text files with universal
  newlines, the `csv` module, backtracking order of `re`, graphs as dictionaries of dictionaries. Case maps, character classes, stemming, `hash`, the order of
  sets and the choices of `set.pop` are parameters that theorems quantify over.

### What is modelled and what is not

Functions of the package (tests and `setup.py` excluded), with the modules of `Verif/Model` or `Verif/Py` that model them: 437 modelled, 22 not. A function
counts as modelled when a definition cites its lines; the comment of the definition says which parts it leaves out.

* `docs/mkdsupport.py`
  * not modelled: `setup`, `pandoc_process` – documentation build, no behaviour of the library
* `metaknowledge/RCglimpse.py`
  * modelled: `_glimpse`, `makeHeader`, `makeTable`, `prepEntry` (Glimpse)
* `metaknowledge/WOS/recordWOS.py`
  * modelled: `WOSRecord.__init__`, `WOSRecord.__init__.addChartoEnd`, `recordParser` (Pipeline, Wos); `WOSRecord.encoding` (Pipeline, WriteFile); `WOSRecord.getAltName` (Pipeline, RecordHeap, TagNames); `WOSRecord.tagProcessingFunc` (Pipeline, RecordHeap, WosFields); `WOSRecord.specialFuncs` (Pipeline, RecordAccess, RecordHeap); `WOSRecord.wosString` (Pipeline); `WOSRecord.UT` (Pipeline, RecordFilters); `WOSRecord.writeRecord` (Pipeline, RecordFilters, Wos, WriteFile)
* `metaknowledge/WOS/tagProcessing/funcDicts.py`
  * modelled: `tagToFull`, `normalizeToTag`, `normalizeToName`, `isTagOrName` (TagNames)
* `metaknowledge/WOS/tagProcessing/helpFuncs.py`
  * modelled: `getMonth` (WosFields); `makeBiDirectional`, `reverseDict` (TagNames)
* `metaknowledge/WOS/tagProcessing/tagFunctions.py`
  * modelled: `pubType`, `authorsFull`, `group`, `editedBy`, `authorsShort`, `bookAuthor`, `bookAuthorFull`, `groupName`, `title`, `editors`, `journal`, `seriesTitle`, `seriesSubtitle`, `language`, `docType`, `confTitle`, `confDate`, `confSponsors`, `wosTimesCited`, `authAddress`, `confLocation`, `j9`, `funding`, `subjectCategory`, `publisherCity`, `ISSN`, `articleNumber`, `issue`, `email`, `eISSN`, `DOI`, `wosString`, `orcID`, `meetingAbstract`, `isoAbbreviation`, `pageCount`, `publisher`, `ISBN`, `month`, `fundingText`, `bookDOI`, `volume`, `ResearcherIDnumber`, `citedRefsCount`, `beginningPage`, `abstract`, `supplement`, `confHost`, `publisherAddress`, `endingPage`, `year`, `authKeywords`, `reprintAddress`, `totalTimesCited`, `partNumber`, `specialIssue`, `subjects`, `keywords`, `pubMedID`, `documentDeliveryNumber` (WosFields); `citations` (Pipeline, WosFields)
* `metaknowledge/WOS/wosHandlers.py`
  * modelled: `isWOSFile` (Wos, WriteFile); `wosParser` (Wos)
* `metaknowledge/__init__.py`
  * not modelled: `downloadExtras` – downloads over the network
* `metaknowledge/bin/metaknowledgeCLI.py`
  * modelled: `yesorNo`, `inputMenu` (Cli, CliRun); `getOutputName` (Cli, CliSession); `Tag`, `getFiles`, `getNetwork` (CliRun); `getNum`, `getThresholds` (Cli); `getWhatToDo` (CliRun, CliSession); `outputNetwork` (Cli, CliRun, CliSession); `mkCLI` (CliSession)
  * not modelled: `argumentParser` – declares options for `argparse`
* `metaknowledge/bin/metaknowledgeDocsGen.py`
  * modelled: `makeBlurb`, `makeHeader`, `getLineNumber`, `cleanargs`, `makeUrls`, `makeSingleFileUrls`, `cleanedDoc`, `makeTitle`, `makeLine`, `makeTable`, `writeFunc`, `writeClass`, `proccessClass`, `writeClassFile`, `writeModuleFile`, `writeMainBody`, `main` (DocsGen)
  * not modelled: `argumentParser`, `mkDocs` – declares options for `argparse` and prints counts
* `metaknowledge/bin/metaknowledgeMdToNb.py`
  * modelled: `argumentParser`, `convert`, `mkMdToNb` (MdToNbFiles); `convertString`, `writeMDcell`, `writePYcell` (MdToNb, MdToNbFiles); `stringPreprossesing` (MdToNb)
* `metaknowledge/citation.py`
  * modelled: `Citation.__init__` (Citation, CiteParse); `Citation.__str__`, `Citation.__hash__`, `Citation.ID`, `Citation.Extra` (CiteText); `Citation.__eq__`, `Citation.isAnonymous`, `filterNonJournals` (Citation); `Citation.allButDOI` (CiteText, NodeInfo); `Citation.isJournal` (Citation, JournalDB); `Citation.FullJournalName`, `Citation.addToDB` (JournalDB)
  * not modelled: `Citation.__repr__` – text for display
* `metaknowledge/constants.py`
  * not modelled: `isInteractive` – asks the terminal
* `metaknowledge/contour/plotting.py`
  * modelled: `quickVisual`, `graphDensityContourPlot` (Plotting)
* `metaknowledge/diffusion.py`
  * modelled: `diffusionGraph`, `makeNodeID` (Diffusion); `diffusionCount` (Diffusion, DiffusionTables, LocalCites); `diffusionAddCountsFromSource` (DiffusionTables)
* `metaknowledge/fileHandlers.py`
  * modelled: `unrecognizedFileHandler` (Files)
* `metaknowledge/genders/nameGender.py`
  * modelled: `downloadData` (GenderData); `getMapping`, `nameStringGender` (Gender, GenderData); `recordGenders` (Gender)
* `metaknowledge/grantCollection.py`
  * modelled: `GrantCollection.__init__` (Cache, Collection, CollectionMixed, Files, Nserc); `GrantCollection.networkCoInvestigatorInstitution` (GrantNetwork); `GrantCollection.networkCoInvestigator` (CoNetworks, GrantNetwork, MergeNetworks)
* `metaknowledge/grants/baseGrant.py`
  * modelled: `Grant.__setitem__`, `Grant.__delitem__`, `Grant.update` (Grants); `Grant.getInvestigators`, `Grant.getInstitutions` (GrantNetwork, Grants); `csvAndLinesReader`, `csvAndLinesReader.readerWithSideEffects`, `FallbackGrant.__init__`, `isFallbackGrantFile`, `parserFallbackGrantFile` (CsvGrants)
  * not modelled: `Grant.__init__` – passes its arguments to the constructor of the base class, which is modelled
* `metaknowledge/grants/cihrGrant.py`
  * modelled: `CIHRGrant.__init__`, `isCIHRfile`, `parserCIHRfile` (CsvGrants)
* `metaknowledge/grants/medlineGrant.py`
  * modelled: `MedlineGrant.__init__` (Grants)
* `metaknowledge/grants/nsercGrant.py`
  * modelled: `NSERCGrant.__init__`, `NSERCGrant.update`, `parserNSERCfile` (Nserc); `NSERCGrant.getInvestigators`, `NSERCGrant.getInstitutions` (GrantNetwork, Grants); `isNSERCfile` (CsvGrants)
* `metaknowledge/grants/nsfGrant.py`
  * modelled: `NSFGrant.__init__`, `isNSFfile`, `parserNSFfile` (Nsf); `NSFGrant.getInvestigators`, `NSFGrant.getInstitutions` (GrantNetwork, Grants)
* `metaknowledge/grants/scopusGrant.py`
  * modelled: `ScopusGrant.__init__` (Grants)
* `metaknowledge/graphHelpers.py`
  * modelled: `readGraph` (GraphFiles, GraphPaths, NetworkFiles); `writeGraph` (CliSession, GraphFiles, GraphPaths, NetworkFiles); `writeEdgeList`, `writeNodeAttributeFile` (GraphFiles, GraphPaths, NetworkFiles, ProgressThread); `writeTnetFile` (GraphHelpers, TnetText); `getNodeDegrees`, `getDegreeDistribution`, `dropNodesByDegree`, `dropNodesByCount` (GraphHelpers); `dropEdges` (GraphHelpers, NetworkFiles); `mergeGraphs` (GraphHelpers, MergeNetworks); `graphStats` (GraphStats)
  * not modelled: `getWeight` – not called by the library
* `metaknowledge/journalAbbreviations/backend.py`
  * modelled: `j9urlGenerator`, `_j9SaveCurrent` (J9Files); `_getDict`, `addToDB`, `excludeFromDB` (JournalDB); `_getCurrentj9Dict`, `updatej9DB`, `getj9dict` (J9Files, JournalDB)
* `metaknowledge/medline/medlineHandlers.py`
  * modelled: `isMedlineFile` (Medline, WriteFile); `medlineParser` (Medline)
* `metaknowledge/medline/recordMedline.py`
  * modelled: `MedlineRecord.__init__`, `MedlineRecord.__init__.addCharToEnd`, `medlineRecordParser` (Medline); `MedlineRecord.encoding` (MedlinePipeline, WriteFile); `MedlineRecord.getAltName` (MedlinePipeline, TagNames); `MedlineRecord.tagProcessingFunc` (MedlineFields, MedlinePipeline); `MedlineRecord.specialFuncs` (MedlinePipeline); `MedlineRecord.writeRecord` (Medline, WriteFile)
* `metaknowledge/medline/tagProcessing/specialFunctions.py`
  * modelled: `year`, `month`, `volume`, `beginningPage`, `DOI`, `address` (MedlineFields, MedlinePipeline)
* `metaknowledge/medline/tagProcessing/tagFunctions.py`
  * modelled: `IR`, `FIR`, `PROF`, `PUBM`, `CN`, `MHDA`, `LID`, `EDAT`, `OCI`, `SB`, `DA`, `PMCR`, `PG`, `GS`, `VI`, `UOF`, `OWN`, `ORI`, `MID`, `PMID`, `PMC`, `RIN`, `RPF`, `CIN`, `FPS`, `TT`, `PHST`, `EFR`, `PST`, `SPIN`, `AU`, `FED`, `NM`, `SO`, `IP`, `OABL`, `CRDT`, `DDIN`, `MH`, `DP`, `GN`, `CRF`, `TI`, `CRI`, `OT`, `ROF`, `OTO`, `OID`, `PT`, `RPI`, `AB`, `EN`, `AD`, `LA`, `TA`, `JT`, `IRAD`, `PS`, `IS`, `PL`, `CTI`, `FAU`, `VTI`, `DCOM`, `BTI`, `CI`, `STAT`, `DRIN`, `RF`, `UIN`, `LR`, `SFM`, `EIN`, `AID`, `PRIN`, `DEP`, `AUID`, `SI`, `ISBN`, `RN`, `JID`, `GR` (MedlineFields)
* `metaknowledge/mkCollection.py`
  * modelled: `Collection.__init__` (Collection, CollectionHeap); `Collection.__hash__`, `Collection.__eq__`, `Collection.__len__`, `Collection.__contains__`, `Collection.peek`, `Collection.chunk`, `Collection.split` (Collection); `Collection.__le__`, `Collection.__ge__` (Collection, CollectionMixed); `Collection.add`, `Collection.discard`, `Collection.remove`, `Collection.clear`, `Collection.pop`, `Collection.__ior__`, `Collection.__iand__`, `Collection.__ixor__`, `Collection.__isub__` (Collection, CollectionHeap, CollectionRun); `Collection.__or__`, `Collection.__and__`, `Collection.__sub__`, `Collection.__xor__` (Collection, CollectionHeap, CollectionMixed, Derived); `Collection.copy` (CollectionHeap); `Collection._loadFromCache`, `Collection._loadFromCache.loadCache`, `Collection._createCache` (Cache, CacheRace); `CollectionWithIDs.containsID`, `CollectionWithIDs.discardID`, `CollectionWithIDs.removeID`, `CollectionWithIDs.getID`, `CollectionWithIDs.badEntries`, `CollectionWithIDs.dropBadEntries`, `CollectionWithIDs.tags` (CollectionIds); `CollectionWithIDs.glimpse` (Glimpse); `CollectionWithIDs.rankedSeries` (MedlinePipeline, Pipeline, ProQuestPipeline, ScopusPipeline, Series, SeriesFiles); `CollectionWithIDs.timeSeries` (FileTables, OtherTables, Series, SeriesFiles); `CollectionWithIDs.cooccurrenceCounts` (FileTables, OtherTables, Series); `CollectionWithIDs.networkMultiLevel` (MedlinePipeline, MergeNetworks, NetworkAttrs, Networks, Pipeline, ProQuestPipeline, ScopusPipeline); `CollectionWithIDs.networkOneMode` (MedlinePipeline, NetworkAttrs, Networks, Pipeline, ProQuestPipeline, ScopusPipeline); `CollectionWithIDs.networkTwoMode` (FileTables, MergeNetworks, NetworkAttrs, NetworkFiles, Networks, OtherTables, ProQuestPipeline); `CollectionWithIDs.networkMultiMode` (MergeNetworks, NetworkAttrs, Networks)
  * not modelled: `Collection.__iter__` – delegates to the dictionary or set, which the models use directly; `Collection.__repr__`, `Collection.__str__` – text for display; `CollectionWithIDs.__init__` – passes its arguments to the constructor of the base class, which is modelled
* `metaknowledge/mkRecord.py`
  * modelled: `Record.__init__` (RecordAccess, RecordEq, RecordHeap); `Record.__hash__`, `Record.__eq__` (CsvGrants, Medline, Nserc, ProQuestFile, RecordEq, Scopus, Wos); `Record.__getitem__` (Grants); `Record.__iter__`, `Record.__len__`, `Record.__contains__`, `Record.__str__`, `Record.__repr__` (RecordMapping); `Record.__bytes__` (Wos); `Record.__getstate__`, `Record.__setstate__`, `Record.copy`, `ExtendedRecord.__getstate__` (RecordHeap); `ExtendedRecord.__init__`, `ExtendedRecord.__getitem__`, `ExtendedRecord.encoding`, `ExtendedRecord.getAltName`, `ExtendedRecord.tagProcessingFunc`, `ExtendedRecord.specialFuncs` (RecordAccess, RecordHeap); `ExtendedRecord.__contains__`, `ExtendedRecord.title`, `ExtendedRecord.authors` (RecordAccess); `ExtendedRecord.get` (MedlinePipeline, Pipeline, ProQuestFile, ProQuestPipeline, RecordAccess, RecordMapping, ScopusPipeline); `ExtendedRecord.values`, `ExtendedRecord.items` (RecordHeap, RecordMapping); `ExtendedRecord.getCitations`, `_pandasPrep` (GetCitations); `ExtendedRecord.subDict` (Tables); `ExtendedRecord.createCitation` (CiteParse, LocalCites, RecordAccess, WhoCites); `ExtendedRecord.authGenders` (Gender); `ExtendedRecord.bibString` (BibEntry, FileBib); `_bibFormatter` (Bib, FileBib)
  * not modelled: `Record.id`, `Record.sourceFile`, `Record.sourceLine` – returns an attribute; `ExtendedRecord.writeRecord` – abstract method, overridden in every class
* `metaknowledge/progressBar.py`
  * modelled: `_ProgressBar.__init__`, `_ProgressBar.threadedUpdate` (ProgressBar, ProgressThread); `_ProgressBar.__bool__` (RecordFilters); `_ProgressBar.__del__`, `_ProgressBar.updateVal` (ProgressThread); `_ProgressBar.finish`, `_ProgressBar.prepString`, `_ProgressBar.prepTime` (ProgressBar)
  * not modelled: `_ProgressBar.__enter__`, `_ProgressBar.__exit__`, `_ProgressBar.jumpUp` – display only: __bool__ tells whether it is a dummy, jumpUp is not called
* `metaknowledge/proquest/proQuestHandlers.py`
  * modelled: `isProQuestFile` (Files, WriteFile); `proQuestParser` (ProQuestFile)
* `metaknowledge/proquest/recordProQuest.py`
  * modelled: `ProQuestRecord.__init__` (ProQuest, ProQuestFile); `ProQuestRecord.__init__.addCharToEnd`, `proQuestRecordParser` (ProQuest); `ProQuestRecord.encoding` (ProQuestPipeline, WriteFile); `ProQuestRecord.getAltName`, `ProQuestRecord.tagProcessingFunc` (ProQuestPipeline); `ProQuestRecord.specialFuncs` (ProQuestPipeline, RecordAccess); `ProQuestRecord.writeRecord` (WriteFile)
* `metaknowledge/proquest/tagProcessing/tagFunctions.py`
  * modelled: `proQuestSubject`, `proQuestIdentifier_Keyword`, `proQuestClassification`, `proQuestTagToFunc` (OtherFields)
* `metaknowledge/recordCollection.py`
  * modelled: `RecordCollection.__init__` (Cache, CacheRace, Collection, CollectionHeap, CollectionMixed, Files, MedlinePipeline, Pipeline, ProQuestPipeline, ScopusPipeline, WriteFile); `RecordCollection.__bytes__`, `RecordCollection.__add__`, `RecordCollection.findProbableCopyright` (CollectionAdd); `RecordCollection.dropNonJournals` (Derived, RecordFilters, WriteFile); `RecordCollection.writeFile` (Medline, MedlinePipeline, Pipeline, Scopus, ScopusPipeline, Wos, WriteFile); `RecordCollection.writeCSV` (FileExports, OptionLists, WriteCsv); `RecordCollection.writeBib` (BibEntry, FileBib); `RecordCollection.forBurst` (FileExports, SeriesFiles, Tables); `RecordCollection.forBurst.otherRepl`, `RecordCollection.forBurst.burstPreper` (FileExports, Tables); `RecordCollection.forNLP` (FileFrames, ScopusFrames, SeriesFiles, Tables); `RecordCollection.forNLP.otherRepl`, `RecordCollection.forNLP.abPrep` (FileFrames, ScopusFrames, Tables); `RecordCollection.makeDict` (FileFrames, MedlineFrames, OptionLists, ScopusDict, Tables); `RecordCollection.rpys`, `RecordCollection.rpys.deviation` (FileTables, OtherTables, Rpys); `RecordCollection.genderStats` (Gender); `RecordCollection.getCitations` (GetCitations); `RecordCollection.networkCoAuthor` (CiteProfile, CoNetworks, Derived, MedlinePipeline, MergeNetworks, NetworkFiles, Pipeline, ProQuestPipeline, ScopusPipeline); `RecordCollection.networkCoAuthor.attributeMaker` (CoNetworks, Derived, MedlinePipeline, MergeNetworks, Pipeline, ProQuestPipeline, ScopusPipeline); `RecordCollection.networkCoCitation` (CiteNetworks, NodeInfo, Pipeline, ScopusPipeline, ScopusWhoCites, WhoCites); `RecordCollection.networkCitation` (CiteNetworks, NodeInfo, ScopusWhoCites, WhoCites, YearDiff); `RecordCollection.networkBibCoupling` (CiteNetworks, ScopusWhoCites, WhoCites); `RecordCollection.yearSplit` (Derived, RecordFilters); `RecordCollection.localCiteStats`, `RecordCollection.localCitesOf` (LocalCites, RecordFilters); `RecordCollection.citeFilter` (RecordFilters); `addToNetwork` (CiteNetworks, YearDiff); `makeID`, `filterCites` (CiteNetworks); `makeNodeTuple` (MergeNetworks, NodeInfo, WhoCites); `expandRecs` (ExpandCore); `findCopyright` (Tables)
  * not modelled: `RecordCollection._extractTagged` – not called and not part of the API (it reads an attribute that no record has)
* `metaknowledge/scopus/recordScopus.py`
  * modelled: `ScopusRecord.__init__` (Scopus, ScopusPipeline); `ScopusRecord.encoding` (ScopusPipeline, WriteFile); `ScopusRecord.getAltName` (ScopusPipeline); `ScopusRecord.tagProcessingFunc` (OtherFields, ScopusPipeline); `ScopusRecord.specialFuncs` (RecordAccess, ScopusPipeline); `ScopusRecord.writeRecord` (Scopus, WriteFile); `ScopusRecord.createCitation` (RecordAccess, ScopusCite, ScopusWhoCites); `scopusRecordParser` (Scopus)
* `metaknowledge/scopus/scopusHandlers.py`
  * modelled: `isScopusFile` (Scopus, WriteFile); `scopusParser` (Scopus)
* `metaknowledge/scopus/tagProcessing/tagFunctions.py`
  * modelled: `commaSpaceSeperated`, `semicolonSpaceSeperated`, `semicolonSeperated`, `stringValue`, `integralValue`, `grantValue` (OtherFields); `citeValue` (OtherFields, ScopusPipeline)

### Axioms per theorem

As printed by `#print axioms`; the names are those of `MANIFEST.json` without namespace and `Cnn_`.

* `Classical.choice`, `Quot.sound`, `propext` (725 theorems): C01: binary_members, inplace_members, eq_iff, hash_of_eq, le_ge; C02: refines_set, peek; C04: chunk_partition, chunk_number; C05: split_partition; C06: remove_present, removed_gone; C07: drop_idempotent; C08: served_iff_fresh, history_partial, sessions_partial, transparent_partial, race, grant_second_load_raises, crash_while_writing, pickle_error_reparses; C09: counts, ranks, pandas; C10: tag, records; C100: json_unique, notebook_partial, empty, no_json, one, all, missing, stop, own, collision; C101: typed, distinct_partial, reused, refused, short; C102: cell, quadrant_partial, square, wrapped, computed, outside, args; C103: parallel, alone, alone_rejected, mixed, wrong; C104: reading, coauthors, coauthors_papers, ranked, years, subjects, cocitation, cocitation_lines; C105: iteration, items, listing, pairs, contains_partial, contains_wrong, hidden, long_names, texts; C106: addresses, saved, workdir_wrong, workdir_partial, interrupted, database, unreachable, unreadable_wrong, relative_wrong, missing_default, named_wrong, named_forever, lookup, missing_manual; C107: sessions_partial, answered, sticks, uk_stays, cut_wrong, empty_wrong; C108: addresses, reading, coauthors, coauthors_papers, ranked, years, terms; C109: reading, coauthors, coauthors_papers, ranked, years, terms, cocitation, cocitation_entries; C11: cooccurrence; C110: rewritten, reread_partial, reread_wrong, reread_years_wrong; C111: reading, ranked, terms, two, coauthors_wrong, coauthors_short_wrong; C112: multi_level, chunk, coinvestigators, coauthors, cocitations, two_mode_partial, multi_mode_partial, citation_partial, citation_counts_wrong, core_wrong, coupling_wrong; C113: rewritten, saved, records, one_mode, coauthors, ranked, cocitation; C114: addresses_kept, records_kept, rewritten_partial, saved_partial, coauthors, terms, ranked, years, addresses_double; C115: saved, records, one_mode, ranked, terms, coauthors; C116: front, headings, ends, single_ends, pages, functions, modules, classes, order_partial, order_wrong, single, single_links_wrong, single_anchor_wrong, single_lists; C117: doc, joined_wrong, quote_wrong, args, self_wrong; C118: citation, links, found, coupling, core; C119: citation, links, found_partial, core, coupling, not_found; C12: multi_level, order_independent, one_mode; C120: citing, stats, years, diffusion; C121: like_file, papers, missing, coauthors, windows; C122: two_mode, two_mode_papers, cooccurrence, time_series, rpys; C123: read, places, same, parenthesis, first_year; C124: medline_two_mode, medline_cooccurrence, medline_time_series, scopus_two_mode, scopus_cooccurrence, scopus_time_series, scopus_rpys, proquest_cooccurrence; C125: burst, csv, split; C126: coauthors, coauthors_papers, two_mode, bounds_after_reading; C127: frame, all, nlp, copyright; C128: plain, wos; C129: frame, all_partial, lost, long_names; C13: types_exact, edges_nodes, counts_exact, counts_partial, types; C130: nlp_partial, abstract_lost; C131: all, chosen_partial, lost, long_names; C14: types_exact, counts_exact_partial, types; C16: cocitation, order_independent, attribute_error; C17: citation_partial, unweighted_direction_ignored, weighted_direction_wrong, unweighted_other_types_raise, empty_head_joins_citations; C18: coupling; C19: filter_partial, no_attribute; C20: empty_entry_raises; C22: raises, progress_raises, raises_iff; C24: citeFilter, citeFilter_partial, none_field_hides_match, year_raises; C25: table, errors, recent_citations_lost; C26: columns_partial, fields, clash_misaligned; C27: copyright_split, copyright_marker, copyright_lossless, copyright_statement, columns_partial, duplicates_misaligned, abstract_characters, dropList_misses_repeats, abstract_words, copyright_option, dropList; C28: history_independent, either_name, authors, clash_depends_on_history, wos_records, medline_records; C29: round_trip, string; C30: round_trip, empty; C31: total, start, prefix, no_error_partial, damaged_lost, repeated_tag, silent_loss, truncation, short_line_splits_record, short_line, records_run_together, no_id; C32: round_trip, reread_partial, author_twice, author_two_lines, no_author; C33: exact, round_trip_partial, start_lost, quote_lost, no_line_end; C34: reads, stops, colon_in_text, key_error; C35: text, reading_unique, short, whole_partial, truncates, witness, witness_empty; C36: total, equality, identity, determined_partial, not_determined, bad_collision, misc_lost; C37: parses_back, multi, multi_no_author, short_author, no_journal, no_year, comma_in_title; C38: dropEdges, raises, idempotent; C39: dropNodesByDegree_partial, dropNodesByCount; C40: union; C41: returns, degrees, handshake, distribution, distribution_sums; C42: succeeds, file, text_succeeds, text, text_read, time_is_key; C43: empty; C44: lookup, added, added_alone, isJournal_partial, excluded_partial, terminates, stale, stale_answers, first, cite_add, cite_invert, cite_unloaded, session, manual_missing, choice_partial, choice_ignored, choice_sticks; C45: count, total, total_single, pairs_partial, extra, compare, shared_citation, compare_error; C46: error, edges_partial, joined_partial, nodes, labels_error, labels_nodes, labels_weighted, labels_unweighted, raw_nodes, raw_witness, string_witness; C47: normalizeToTag, normalizeToName, inverse, idempotent, tagToFull, isTagOrName, wos_alternatives, medline_alternatives, case_mismatch; C48: file, directory_partial, count_partial, readable, unreadable, clash, key_repeats; C50: medline, medline_ambiguous, scopus, scopus_lost, medline_witness, scopus_witness; C51: raises; C52: mapping, keys_once; C53: counts, one, total, authors_partial, fractions, record_fractions, repeated_name, other_value; C54: width, text, lines, fixed, exponent, time, percent, screen, narrow; C55: proquest, proquest_missed, wos, medline, scopus, record_order, wos_written, medline_written, medline_taken_for_wos; C57: words_exact, dropList; C58: round_trip, total, prefix_partial, raises, truncation_silent, last_character; C59: round_trip, written, header_order_ignored; C60: page, pages; C61: selected, unselected, file, long_names, long_names_default, split, split_raises, baseName, first_tags_changed, first_tags_otherwise, twice_counts; C62: share_nothing, others_untouched, copy_equal; C63: distinct, table, totals, year_totals; C64: set; C65: fields, entry, entry_fails, plain_key, wos_entry, wos_key, nice_untitled, nice_key, nice_short, nice_collision, nice_witness, header, file, bad_record; C67: leaf, list, absent, investigators, organizations, raises, entry, names, id, file, no_award, empty_id, repeated_lost; C68: rows, cihr_rows, rows_later, ids, error, bad, nserc_file, cihr_file, fallback_file, fallback_set, cihr_set_partial, twin_lost, id_changes; C69: text, text_upper, abstract, lines, lists, keywords, lists_lossless, sponsors, first, continuation_lost, counts, year, year_digits, month, month_range, month_not_a_number, addresses, address_swallowed, raises, known, every_tag; C70: first, lines, unreadable, authors, affiliation_lost, address, year, year_in_word, year_total, year_negative, month, volume, page, doi; C71: scopus_lists, scopus_lossless, scopus_values, scopus_unknown, scopus_author_cut, proquest_single, proquest_other, proquest_lists, proquest_classification, proquest_special, proquest_authorsFull, proquest_year; C72: compact, plain, default_size, small_raises, long_title; C73: reads, record, rest, no_contents, set, twin_lost, trailing_blank, number_raises; C74: raw, raw_extra, columns_collide, tag, tag_extra, extra_counts, local_zero; C75: core, core_raises, detailed, outside, other, year_left_out; C76: unknown, tuple, lines, sentence, counts_exact, counts_rounded, counts_nearest, same_text; C77: parses_back_partial, page_as_volume, bad, multi_bad; C78: wos_partial, wos_shares, written_file_changes; C79: lines, code_cells, notebook_partial, last_line, last_line_invalid, backslash; C80: exact, filters_partial, any_graph_partial, no_filter_raises, above_witness, isolates_directed, isolates_directed_witness; C81: empty_name; C82: sum_partial, type_error, errors_lost, bytes, bytes_reread; C83: extra_partial, scopus, written, extra_lost; C84: copyrights, same_set; C85: alone_partial, nsf_list, nsf_self, nserc_list_partial, order_partial, order_matters, leaks; C86: medline, scopus, proQuest, wos; C87: network, job, output, files, files_asked, trailing_blank, citations, console, small_letters; C88: review_partial, other_database, not_over; C89: two_mode, two_mode_counts, two_mode_types, multi_level_partial, repeat_raises, text_taken_apart; C90: exact, complete, alone_partial; C91: stored_partial, same_class_partial, compare, plain_sets; C92: closed, output_partial, moment, wait, no_deadlock, quiet, unclosed, edge_list, parts; C93: session, only_named, agreed_partial, left, ends, status; C94: selections_partial, left_alone, tuple, nlp_partial, nlp_shared, nlp_list, first_grows, first_partial; C95: same_network, first_partial, years_partial, order_partial, good_full, good_original, only_there, order_matters, never_added; C96: ranked, ranked_raises, ranked_row, time, time_records, nlp_partial, nlp_repeated, windows; C97: profile, profile_partial, two_authors; C98: files_partial, read_back, kept, apart, lost, trailing_slash, no_name, home_parent; C99: one_file, wos, medline, scopus, unmarked_wos, unmarked_scopus, union_lost, text, stop, stop_wos, not_latin, garbled, default, source, directory
* `Quot.sound`, `propext` (109 theorems): C02: types_cover; C03: inplace_errors, binary_errors_partial; C06: containsID_iff, getID, remove_absent; C07: bad_entries, tags; C10: total; C103: source, right_partial, half_written, removed_twice, killed; C13: left_out; C14: left_out, edges_nodes, same_tag_not_joined; C15: edges_nodes, attributes, counts_partial; C20: partition; C21: yearSplit, partition; C22: localCiteStats_partial; C23: citation, id, localCitesOf_partial; C25: median_unique; C27: every_text_has_words, dropped_all; C28: medline_class, scopus_class, proQuest_class, wos_class; C33: line_partial, escaped, inner_quotes; C39: undirected; C40: mergeGraphs, sums, missing_overwrites, no_node_key; C43: round_trip_partial, strings, types_lost; C47: case; C49: edges_nodes, attributes, counts_partial; C50: medline_bad, medline_id; C51: names, tagged, nserc, nserc_tags, nserc_names, nserc_list_stable; C53: list; C55: first, file, directory, directory_unknown; C56: dropNonJournals; C57: rows, words, words_lossless; C63: filter; C64: laws, good_iff, bad_iff, sources, transitive, collision; C66: nodes, outside, keeps, links, self_links, no_others, weights, both, never_raises; C68: values; C70: addresses_text; C74: counts, counts_kept, counts_emptied; C78: copies_partial, copy_shares, same_list; C81: output_name_partial, graph_name_partial; C87: missing, files_read; C89: number_raises, multi_mode, two_mode_left_out; C90: number_raises, with_edge_tag; C91: iterator_empty, cached, left_set, other_class, isdisjoint; C96: burst; C97: network; C99: operators, noted
* no axioms (6 theorems): C08: damaged_not_served; C51: defaults, nsf; C61: shared_file; C64: not_transitive_with_base; C81: name_option
* `propext` (49 theorems): C01: declines_iff, names; C02: collected_types; C03: clear, bad_iff, binary_loses_left_errors; C09: error_iff, plain; C101: plain, empty; C107: uk_wrong; C112: two_mode_counts_wrong, multi_mode_counts_wrong, info_overwritten; C13: types_wrong, counts_wrong; C14: counts_wrong; C15: counts_wrong; C22: pandas; C23: citation_string_ignored, record_raises; C28: get; C39: directed, degree_after; C40: no_edge_key; C41: negative; C43: options_raise; C44: exclusive; C47: medline_unnamed; C49: counts_wrong; C50: medline_id_agency, medline_id_none; C51: nsf_list_grows; C52: update_flags; C55: extension; C61: fileName; C66: raises, not_joined, only_later, weight_overwritten; C80: above, console; C89: one_mode; C90: shared, one_mode; C91: nothing, right_set; C94: no_tag_is_a_name; C99: filled
