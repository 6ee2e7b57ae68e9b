{"id": "C01", "title": "Set algebra of collections", "statement": "For two collections of the same class, an element is in a|b exactly when it is in a or in b, in a&b exactly when it is in both, in a-b exactly when it is in a and not in b, in a^b exactly when it is in exactly one; the in-place forms |=, &=, -=, ^= leave the left collection with exactly the members the binary form returns; no result holds two equal elements; for operands of different classes every operator declines (NotImplemented) and changes nothing.", "quantifier": "all pairs of collections (any contents, names, error states) and all candidate elements", "why_tests_cant": "The laws must hold for every pair of sets and every element; a test fixes a handful of record files.", "anchors": ["metaknowledge/mkCollection.py: Collection.__or__, __and__, __sub__, __xor__, __ior__, __iand__, __isub__, __ixor__"]}
{"id": "C02", "title": "A collection refines a set under every history", "statement": "After any sequence of add, discard, remove, clear, pop and in-place set operations starting from an empty collection, the collection's members are those of the mathematical set obtained by the same operations, len() is its cardinality, every member is of an allowed type, and the operations that raise (add of a wrong type, remove of a missing element, pop on empty) leave the collection unchanged.", "quantifier": "all finite histories of mutating operations, all elements, and every choice pop may make", "why_tests_cant": "Histories are unbounded and pop's choice is hash-order dependent; tests run a few fixed sequences.", "anchors": ["metaknowledge/mkCollection.py: Collection.add, discard, remove, clear, pop, __contains__, __len__, peek"]}
{"id": "C03", "title": "Error flags survive set operations", "statement": "When either operand of a set operation is marked bad the result is marked bad and every recorded error of both operands is in the result's errors; when neither is bad the result is not bad.", "quantifier": "all pairs of collections with arbitrary bad flags and error dictionaries, all eight set operators", "why_tests_cant": "Loss of an error entry only shows for particular combinations of error states on the left operand; every combination must be covered.", "anchors": ["metaknowledge/mkCollection.py: Collection.__or__, __ior__ and the other operators"]}
{"id": "C04", "title": "chunk partitions without modifying", "statement": "chunk(maxSize) with maxSize >= 1 returns collections that are pairwise disjoint, each non-empty and of at most maxSize elements, all but the last of exactly maxSize, whose union is the collection; there are ceil(n/maxSize) of them; the source is unchanged. For maxSize <= 0 each chunk holds exactly one element.", "quantifier": "all collections, all iteration orders, all integers maxSize", "why_tests_cant": "Sizes and iteration orders are unbounded; off-by-one errors hide at sizes tests do not use.", "anchors": ["metaknowledge/mkCollection.py: Collection.chunk"]}
{"id": "C05", "title": "split partitions and empties", "statement": "split(maxSize) returns the same kind of partition as chunk, whichever elements pop removes at each step, and afterwards the source collection is empty, not bad and has no errors.", "quantifier": "all collections, all pop schedules, all integers maxSize", "why_tests_cant": "pop's choice is arbitrary and the loop ends through an exception; all schedules must be covered.", "anchors": ["metaknowledge/mkCollection.py: Collection.split"]}
{"id": "C06", "title": "Lookup and removal by id agree", "statement": "containsID(i) is true exactly when some member has id i; getID(i) returns a member with id i or None when there is none; discardID/removeID(i) remove exactly one member with that id and nothing else; removeID raises KeyError exactly when containsID is false and then changes nothing.", "quantifier": "all collections of items with ids, all ids, all iteration orders", "why_tests_cant": "The agreement between four methods must hold for every content, including repeated ids and bad records that share an id.", "anchors": ["metaknowledge/mkCollection.py: CollectionWithIDs.containsID, getID, discardID, removeID"]}
{"id": "C07", "title": "Bad entries are separated exactly", "statement": "badEntries() contains exactly the members flagged bad and dropBadEntries() keeps exactly the others, clears the error state, and is idempotent.", "quantifier": "all collections with arbitrary bad flags", "why_tests_cant": "Must hold for every mixture of good and bad members.", "anchors": ["metaknowledge/mkCollection.py: CollectionWithIDs.badEntries, dropBadEntries"]}
{"id": "C08", "title": "A stale cache is never served", "statement": "Loading a directory through the cache yields a collection only if the cache was written by the same metaknowledge version, for the same name and extension, and for exactly the set of files now listed with unchanged modification times; otherwise the cache file is deleted and the files are reparsed. A cache just written, with nothing changed, is accepted and yields the collection that was saved.", "quantifier": "all cache contents, all directory listings and modification times, all histories of file edits between writing and loading", "why_tests_cant": "Staleness depends on arbitrary interleavings of file-system changes.", "anchors": ["metaknowledge/mkCollection.py: Collection._loadFromCache, _createCache"]}
{"id": "C09", "title": "rankedSeries counts and ranks correctly", "statement": "With giveCounts the result lists each distinct value of the tag once, with the number of times it occurs over all records, ordered by count (descending by default, and always in the pandas form); with giveRanks ranks are dense: the most frequent value has rank 1, equal counts share a rank and the next smaller count has the next rank; limitTo keeps exactly the requested values; asking for both giveCounts and giveRanks raises.", "quantifier": "all collections, all tag contents (missing, single valued, list valued, repeated), all option combinations", "why_tests_cant": "Tie handling, ordering and rank arithmetic must hold for every multiset of values.", "anchors": ["metaknowledge/mkCollection.py: CollectionWithIDs.rankedSeries"]}
{"id": "C10", "title": "timeSeries counts per year", "statement": "timeSeries(tag) gives for each value and each year the number of occurrences of the value in records of that year, skipping records without a year or tag; entries are sorted by year; summing over years gives the value's total count.", "quantifier": "all collections, tags and years", "why_tests_cant": "Counting must be right for every distribution of values over years.", "anchors": ["metaknowledge/mkCollection.py: CollectionWithIDs.timeSeries"]}
{"id": "C11", "title": "Co-occurrence counts", "statement": "cooccurrenceCounts(key, *tags) maps each value of the key tag to, for every value of the counted tags, the number of co-occurrences over records that hold both, each record contributing the product of multiplicities.", "quantifier": "all collections, all tag value lists", "why_tests_cant": "Counting must be right for all multiplicities and for records missing either tag.", "anchors": ["metaknowledge/mkCollection.py: CollectionWithIDs.cooccurrenceCounts"]}
{"id": "C12", "title": "One-mode and multi-level network weights", "statement": "In networkMultiLevel/networkOneMode the weight of the edge between two distinct values is the number of co-occurring position pairs over all records, the count of a node is the number of occurrences, nodes are exactly the values that occur, no edge joins values that never co-occur, and the result does not depend on the order in which records are visited.", "quantifier": "all collections, all tag value lists, all iteration orders, weighted or not, counted or not", "why_tests_cant": "Weights accumulate over unboundedly many records and hash-ordered iteration.", "anchors": ["metaknowledge/mkCollection.py: CollectionWithIDs.networkMultiLevel, networkOneMode"]}
{"id": "C13", "title": "Two-mode networks are bipartite with correct weights and counts", "statement": "networkTwoMode(tag1, tag2) only joins a value of tag1 to a value of tag2, the weight of such an edge is the number of co-occurrences, and every node's count is the number of times it occurs; its type is the tag it occurs under, or both. Counts and types are left out when not asked for.", "quantifier": "all collections, all tag value lists, weighted/directed/counted options", "why_tests_cant": "A missed count update only appears for particular visiting orders.", "anchors": ["metaknowledge/mkCollection.py: CollectionWithIDs.networkTwoMode"]}
{"id": "C14", "title": "n-mode networks join different modes only", "statement": "networkMultiMode(tags) joins two values exactly when they occur in one record under two different tags, with weight the number of such co-occurrences, and never joins two values only for sharing the same tag. The type of a node is the tag it occurs under, its count the number of times it occurs; both are left out when not asked for.", "quantifier": "all collections, all lists of tags", "why_tests_cant": "Holds for all numbers of tags and all records; tests use three tags of one file.", "anchors": ["metaknowledge/mkCollection.py: CollectionWithIDs.networkMultiMode"]}
{"id": "C15", "title": "Co-authorship networks", "statement": "networkCoAuthor: the weight of the edge between two distinct authors is the number of position pairs they share over all records; the count of an author is the number of papers they wrote.", "quantifier": "all record collections and author lists, all iteration orders", "why_tests_cant": "The count is computed inside nested loops; only particular author positions reveal a wrong count.", "anchors": ["metaknowledge/recordCollection.py: RecordCollection.networkCoAuthor"]}
{"id": "C16", "title": "Co-citation networks", "statement": "networkCoCitation: for distinct cited works the edge weight is the number of records citing both (per position pair), edges never join works no record cites together, and the result is independent of the order of records; the call raises AttributeError exactly when a kept citation lacks the attribute the node type needs (a Scopus citation that could not be read).", "quantifier": "all record collections, all citation lists", "why_tests_cant": "Weights accumulate over unbounded inputs.", "anchors": ["metaknowledge/recordCollection.py: RecordCollection.networkCoCitation, addToNetwork"]}
{"id": "C17", "title": "Citation networks", "statement": "networkCitation: there is an edge between a record's own citation and each kept citation it lists and no other edge, with weight the number of times it lists it; with directed=True edges point from the citing record to the cited work.", "quantifier": "all record collections, all citation lists, weighted/unweighted, node types", "why_tests_cant": "Edge direction and weight must hold for every input and option.", "anchors": ["metaknowledge/recordCollection.py: RecordCollection.networkCitation, addToNetwork"]}
{"id": "C18", "title": "Bibliographic coupling", "statement": "networkBibCoupling: two records are joined exactly when they cite a common work and the weight is the number of works both cite (with multiplicity of the citation weights as coded).", "quantifier": "all record collections and citation lists", "why_tests_cant": "Coupling is a quadratic join over arbitrary citation sets.", "anchors": ["metaknowledge/recordCollection.py: RecordCollection.networkBibCoupling"]}
{"id": "C19", "title": "Citation filtering keeps exactly the requested citations", "statement": "Before citations enter a network, a citation is kept exactly when it has the attribute the node type needs, is a journal if journals were requested, is not anonymous when anonymous ones are dropped, is in the core when only core citations are requested, and matches no dropped keyword; order and multiplicity are preserved.", "quantifier": "all citation lists and all filter options", "why_tests_cant": "Five interacting flags over arbitrary citations.", "anchors": ["metaknowledge/recordCollection.py: filterCites"]}
{"id": "C20", "title": "Journal filter partitions", "statement": "filterNonJournals(c) and filterNonJournals(c, invert=True) split a citation list into two order-preserving sublists whose merge is the input, each citation landing in exactly one; both raise IndexError exactly when the journal of some citation is listed without any name.", "quantifier": "all citation lists, all journal databases", "why_tests_cant": "Must hold for every list and database.", "anchors": ["metaknowledge/citation.py: filterNonJournals, Citation.isJournal"]}
{"id": "C21", "title": "yearSplit selects an inclusive range", "statement": "yearSplit(s, e) contains exactly the records whose year y satisfies s <= y <= e; records without a usable year are dropped when dropMissingYears is set and raise otherwise; splitting at any point partitions.", "quantifier": "all collections, all start/end years", "why_tests_cant": "Boundary behaviour for every pair of years.", "anchors": ["metaknowledge/recordCollection.py: RecordCollection.yearSplit"]}
{"id": "C22", "title": "Local citation statistics", "statement": "localCiteStats maps each distinct citation (or its chosen attribute) to the number of times it is cited in the collection, and the counts sum to the number of citations considered; it raises AttributeError exactly when some citation lacks the chosen attribute (a Scopus citation that could not be read), whether or not progress is shown (metaknowledge.VERBOSE_MODE).", "quantifier": "all record collections, all key types", "why_tests_cant": "Totals and identity grouping must hold for every input.", "anchors": ["metaknowledge/recordCollection.py: RecordCollection.localCiteStats"]}
{"id": "C23", "title": "localCitesOf finds the citing records", "statement": "localCitesOf(x) returns exactly the records whose citations contain x, when x is a citation, a citation string, or a record of the collection.", "quantifier": "all collections, all targets of each of the three kinds", "why_tests_cant": "Every input kind and collection must be covered.", "anchors": ["metaknowledge/recordCollection.py: RecordCollection.localCitesOf"]}
{"id": "C24", "title": "citeFilter and its reverse are complementary", "statement": "citeFilter(k, field) returns exactly the records having a citation whose field matches, and with reverse=True exactly the remaining ones, so the two results partition the collection.", "quantifier": "all collections, keywords, fields", "why_tests_cant": "Must hold for every field and every citation shape, including missing fields.", "anchors": ["metaknowledge/recordCollection.py: RecordCollection.citeFilter"]}
{"id": "C25", "title": "RPYS counts, medians and ranks", "statement": "rpys: count of a year is the number of citations to it from records published at least two years later, or with no year; abs-deviation is the count minus the median of the five-year window centred on it; ranks of all listed years are the numbers from 1, larger for larger deviations (a year never cited shows rank 0 unless rankEmptyYears); the years listed are exactly those in range and not dropped; years outside the range are not reported.", "quantifier": "all collections of citation years, all min/max years", "why_tests_cant": "Window arithmetic at boundaries and tie handling for all distributions.", "anchors": ["metaknowledge/recordCollection.py: RecordCollection.rpys"]}
{"id": "C26", "title": "makeDict columns line up", "statement": "All columns of makeDict() have the same length, one row per record in iteration order, and cell i of column t is the value of tag t of record i or the missing value; the author and gender columns hold the counts of record i. Without a selection the columns are all tags of the records, and the only error is a missing long name.", "quantifier": "all collections, all tag selections", "why_tests_cant": "Alignment must hold for records with any pattern of missing tags.", "anchors": ["metaknowledge/recordCollection.py: RecordCollection.makeDict"]}
{"id": "C27", "title": "forNLP rows and copyright stripping", "statement": "forNLP() columns all have one entry per record with the documented content; no character that was to be removed remains in an abstract; the copyright text split off an abstract is a suffix of it starting at the last occurrence of the first known marker, and what remains followed by it is the original abstract up to white space at the end; the abstract returned is word for word the original one, each word lowered, cleaned and stemmed as the options say, without the words of the drop list; the copyright text appears only when asked for.", "quantifier": "all collections, all abstracts", "why_tests_cant": "String splitting must lose nothing for any abstract.", "anchors": ["metaknowledge/recordCollection.py: RecordCollection.forNLP, findCopyright"]}
{"id": "C28", "title": "Record field access is history independent", "statement": "The value returned for a tag of a record does not depend on which tags were read before, on whether the long or short name of the tag is used, or on how often it is read; reading never changes the set of tags or their values (for records that do not carry fields under both names of one tag); get returns the default exactly when access raises KeyError.", "quantifier": "all records and all finite sequences of accesses", "why_tests_cant": "Memoisation bugs appear only after particular access histories.", "anchors": ["metaknowledge/mkRecord.py: ExtendedRecord.__getitem__, get, __contains__; metaknowledge/WOS/tagProcessing/funcDicts.py: normalizeToTag"]}
{"id": "C29", "title": "WOS record round trip", "statement": "Parsing the text that writeRecord produces for a WOS record gives back the same tags in the same order with the same values.", "quantifier": "all tag dictionaries with two-character tags, non-empty value lists and no newlines", "why_tests_cant": "All field contents, including values that look like tags, must survive.", "anchors": ["metaknowledge/WOS/recordWOS.py: recordParser, WOSRecord.writeRecord"]}
{"id": "C30", "title": "WOS file round trip", "statement": "Reading the file that writeFile produces for a collection of WOS records yields exactly those records and no error.", "quantifier": "all finite non-empty collections of well-formed WOS records, all write orders (an empty one cannot be written)", "why_tests_cant": "File-level framing must be unambiguous for every content.", "anchors": ["metaknowledge/recordCollection.py: RecordCollection.writeFile; metaknowledge/WOS/wosHandlers.py: wosParser"]}
{"id": "C31", "title": "The WOS reader is total and isolates damage", "statement": "wosParser returns (never hangs or raises) on every text; records preceding a damaged record are returned unchanged; a missing EF, text after EF or a malformed record is reported as an error or as a bad record; a record missing ER, with a repeated tag or a short line is bad.", "quantifier": "all input texts (all truncation points of a file)", "why_tests_cant": "Truncation and corruption points are unbounded.", "anchors": ["metaknowledge/WOS/wosHandlers.py: wosParser; metaknowledge/WOS/recordWOS.py: recordParser, WOSRecord.__init__"]}
{"id": "C32", "title": "Medline record round trip", "statement": "Parsing what writeRecord produces for a Medline record gives back the same tags and values, including author-attached fields (AD, AUID) that belong to an author of the record.", "quantifier": "all Medline tag dictionaries in the parser's image", "why_tests_cant": "Interleaving of author-based fields must be reconstructed for every author list.", "anchors": ["metaknowledge/medline/recordMedline.py: medlineRecordParser, MedlineRecord.writeRecord"]}
{"id": "C33", "title": "Scopus record round trip", "statement": "Parsing the CSV line written for a Scopus record gives back the same non-empty columns, for values with commas and inner quotes.", "quantifier": "all column assignments without newlines", "why_tests_cant": "The hand-written CSV splitter must be right on every quoting pattern.", "anchors": ["metaknowledge/scopus/recordScopus.py: scopusRecordParser, ScopusRecord.writeRecord"]}
{"id": "C34", "title": "ProQuest parsing", "statement": "proQuestRecordParser assigns to each 'Key: value' line its value, to Name/url the unlabelled lines, and appends continuation lines to the current key in order, stopping exactly at the separator line.", "quantifier": "all record texts", "why_tests_cant": "Must hold for any mix of line kinds.", "anchors": ["metaknowledge/proquest/recordProQuest.py: proQuestRecordParser"]}
{"id": "C35", "title": "BibTeX values are not truncated", "statement": "The BibTeX rendering of a field contains all characters of the value (after the documented escaping), split into pieces no longer than the limit.", "quantifier": "all values and length limits", "why_tests_cant": "Truncation appears only for lengths that are not multiples of the limit.", "anchors": ["metaknowledge/mkRecord.py: _bibFormatter, ExtendedRecord.bibString"]}
{"id": "C36", "title": "Citation identity", "statement": "Two citations are equal exactly when their IDs are equal, equality is an equivalence and equal citations have equal hashes; the ID is determined by author, year and journal.", "quantifier": "all citation strings", "why_tests_cant": "An equivalence relation must hold for all pairs/triples.", "anchors": ["metaknowledge/citation.py: Citation.__eq__, __hash__, ID"]}
{"id": "C37", "title": "A record's own citation parses back", "statement": "The citation createCitation() builds for a WOS record parses to a Citation whose author, year, journal, volume, page and DOI are those of the record.", "quantifier": "all records whose fields satisfy the field grammar", "why_tests_cant": "Regex parsing over all field contents.", "anchors": ["metaknowledge/mkRecord.py: ExtendedRecord.createCitation; metaknowledge/citation.py: Citation.__init__, wosCiteRegex"]}
{"id": "C38", "title": "dropEdges keeps exactly the edges in range", "statement": "dropEdges(G, min, max, drop, loops) removes exactly the edges whose weight is below min or above max (inclusive bounds kept) and, when asked, self loops; edges without a weight are kept with ignoreUnweighted and raise KeyError otherwise; nodes and remaining attributes are untouched; applying it twice equals applying it once.", "quantifier": "all graphs, all bounds", "why_tests_cant": "Boundary conditions and mutation during iteration for all graphs.", "anchors": ["metaknowledge/graphHelpers.py: dropEdges"]}
{"id": "C39", "title": "dropNodesByDegree and dropNodesByCount keep exactly the nodes in range", "statement": "dropNodesByDegree removes exactly the nodes whose (weighted) degree in the original graph is outside [min, max]; dropNodesByCount exactly those whose count is outside; edges among kept nodes are untouched and all edges incident to removed nodes vanish.", "quantifier": "all graphs, all bounds", "why_tests_cant": "The decision must be taken on the original graph for every removal order.", "anchors": ["metaknowledge/graphHelpers.py: dropNodesByDegree, dropNodesByCount"]}
{"id": "C40", "title": "mergeGraphs adds counts and weights", "statement": "After mergeGraphs(T, A) the nodes and edges are the union; the count of a shared node and the weight of a shared edge are the sums when both graphs have the value, and what only one graph has keeps its value; A is unchanged; merging the networks of two disjoint collections gives the network of their union.", "quantifier": "all pairs of graphs", "why_tests_cant": "Must hold for all overlaps.", "anchors": ["metaknowledge/graphHelpers.py: mergeGraphs"]}
{"id": "C41", "title": "Degrees and degree distribution", "statement": "getNodeDegrees sums incident weights per node; the sum over nodes is twice the total weight; the degree distribution sums to the number of nodes; its weighted sum is the sum of degrees.", "quantifier": "all graphs", "why_tests_cant": "Handshake identities are universally quantified.", "anchors": ["metaknowledge/graphHelpers.py: getNodeDegrees, getDegreeDistribution"]}
{"id": "C42", "title": "tnet files encode the graph", "statement": "writeTnetFile numbers the nodes 1..n injectively and writes one line per edge with its weight (mode 1 index first in two-mode files), raising exactly when a two-mode graph does not have exactly two modes or an edge does not join them.", "quantifier": "all graphs, all mode assignments", "why_tests_cant": "Index injectivity and bipartition hold for all graphs.", "anchors": ["metaknowledge/graphHelpers.py: writeTnetFile"]}
{"id": "C43", "title": "Graph write/read round trip", "statement": "readGraph(writeGraph(G)) gives back nodes, edges and their attributes for graphs whose names survive CSV quoting.", "quantifier": "all graphs with string ids", "why_tests_cant": "Round trip for every graph.", "anchors": ["metaknowledge/graphHelpers.py: writeGraph, writeEdgeList, writeNodeAttributeFile, readGraph"]}
{"id": "C44", "title": "Journal database precedence", "statement": "In the database a user sees, an entry of the manual database overrides the WOS one; excluded entries are reported as not journals; addToDB followed by lookup returns the added names; exclude then lookup returns excluded.", "quantifier": "all database contents, all histories of addToDB/excludeFromDB", "why_tests_cant": "Arbitrary histories of edits.", "anchors": ["metaknowledge/journalAbbreviations/backend.py: getj9dict, addToDB, excludeFromDB, updatej9DB"]}
{"id": "C45", "title": "diffusionCount conserves citations", "statement": "For source and target collections, the count attributed to a source value is the number of (target citation, source record) matches and the counts sum to the total number of matches.", "quantifier": "all pairs of collections", "why_tests_cant": "Counting over arbitrary joins.", "anchors": ["metaknowledge/diffusion.py: diffusionCount"]}
{"id": "C46", "title": "diffusionGraph edges", "statement": "diffusionGraph joins a source record to a target record exactly when the target cites the source's citation.", "quantifier": "all pairs of collections", "why_tests_cant": "Arbitrary joins.", "anchors": ["metaknowledge/diffusion.py: diffusionGraph, makeNodeID"]}
{"id": "C47", "title": "Tag names normalise consistently", "statement": "normalizeToTag and normalizeToName are inverse on tags and idempotent; normalizeToTag accepts any letter case and raises exactly when no letter-case variant is a tag or name; normalizeToName raises exactly when isTagOrName is false.", "quantifier": "all strings", "why_tests_cant": "All letter-case variants of all names plus all non-names.", "anchors": ["metaknowledge/WOS/tagProcessing/funcDicts.py: normalizeToTag, normalizeToName, isTagOrName; helpFuncs.py: makeBiDirectional, reverseDict"]}
{"id": "C48", "title": "NSERC grants are merged without loss", "statement": "Grants with the same key read from one or several files are merged into one grant in which every non-empty field value of every row appears, in order, separated by '; '; the number of grants is the number of distinct keys.", "quantifier": "all sequences of rows and all partitions into files", "why_tests_cant": "Merging order and splits into files are unbounded.", "anchors": ["metaknowledge/grants/nsercGrant.py: NSERCGrant.update, parserNSERCfile; metaknowledge/grantCollection.py: GrantCollection.__init__"]}
{"id": "C49", "title": "Co-investigator networks", "statement": "networkCoInvestigator: edge weights are numbers of shared positions over all grants; node counts are numbers of grants the investigator holds.", "quantifier": "all grant collections", "why_tests_cant": "Accumulation over arbitrary grants.", "anchors": ["metaknowledge/grantCollection.py: GrantCollection.networkCoInvestigator"]}
{"id": "C50", "title": "Grant strings decompose without loss", "statement": "A Medline or Scopus grant string is decomposed into country/agency/code/number fields from which the string can be rebuilt; a string without separators yields a bad grant for Medline.", "quantifier": "all strings", "why_tests_cant": "All numbers and positions of separators.", "anchors": ["metaknowledge/grants/medlineGrant.py: MedlineGrant.__init__; metaknowledge/grants/scopusGrant.py: ScopusGrant.__init__"]}
{"id": "C51", "title": "Investigators are split by separator", "statement": "getInvestigators returns, for the requested tags in order, the pieces of the field between separators, stripped, skipping absent tags; with no tags it returns the empty list.", "quantifier": "all grants, tag lists, separators", "why_tests_cant": "All texts.", "anchors": ["metaknowledge/grants/baseGrant.py: Grant.getInvestigators"]}
{"id": "C52", "title": "A grant behaves as a mutable mapping", "statement": "After any sequence of item assignments and deletions a grant's fields are those of a dictionary under the same operations; update lets the other grant win on conflicts.", "quantifier": "all histories", "why_tests_cant": "Histories are unbounded.", "anchors": ["metaknowledge/grants/baseGrant.py: Grant.__setitem__, __delitem__, update"]}
{"id": "C53", "title": "Gender tallies", "statement": "genderStats counts: for each author exactly one of Male/Female/Unknown is incremented, totals add up to the number of authors.", "quantifier": "all collections, all name databases", "why_tests_cant": "Totals must balance for all names.", "anchors": ["metaknowledge/recordCollection.py: RecordCollection.genderStats; metaknowledge/genders/nameGender.py"]}
{"id": "C54", "title": "Progress strings fit", "statement": "prepString(s, n) returns exactly n characters whenever n leaves room for the ellipsis; the time shown takes exactly the width given to it (six characters or more) and is within half a unit of its last digit of the time that has passed, the percentage takes six characters; so in a terminal of at least twenty columns every line of the bar, and the last line, has exactly the width of the terminal and never wraps.", "quantifier": "all strings, widths, times and parts done", "why_tests_cant": "Width arithmetic for even and odd widths, and rounding at the ends of the ranges.", "anchors": ["metaknowledge/progressBar.py: _ProgressBar.prepString, prepTime, threadedUpdate, finish"]}
{"id": "C55", "title": "Source file detection picks the first matching reader", "statement": "The reader used for a file is the first in the fixed order whose detector accepts it, and a file no detector accepts is reported unknown, never silently read.", "quantifier": "all files / detector outcomes", "why_tests_cant": "All combinations of detector results.", "anchors": ["metaknowledge/fileHandlers.py; metaknowledge/recordCollection.py: RecordCollection.__init__"]}
{"id": "C56", "title": "Dropping non journals keeps exactly the matching records", "statement": "dropNonJournals keeps exactly the records whose publication type equals the upper-cased ptVal (differs from it with invert), drops every bad record first when dropBad is set, changes no record, and removes nothing else.", "quantifier": "all collections, publication types and options", "why_tests_cant": "Needs every mix of bad, untyped and typed records.", "anchors": ["metaknowledge/recordCollection.py: RecordCollection.dropNonJournals"]}
{"id": "C57", "title": "forBurst rows", "statement": "forBurst() returns a year and a word column of the same length whose rows are, record by record, the year with each word of the cleaned text; records lacking the year or the tag contribute nothing; words contain no space and no character that was to be removed, and they are exactly the words of the text without those of the drop list, each lowered, cleaned and stemmed as the options say.", "quantifier": "all collections, all texts, all options", "why_tests_cant": "The alignment and the cleaning must hold for every text.", "anchors": ["metaknowledge/recordCollection.py: RecordCollection.forBurst"]}
{"id": "C58", "title": "Medline files round trip and damage is contained", "statement": "Reading the file written for a collection of Medline records gives back the same records and no error; whatever follows the records in a file, the records in front of the damage are returned; the reader always comes to an end.", "quantifier": "all collections of Medline records, all texts appended", "why_tests_cant": "Every record list and every damaged tail.", "anchors": ["metaknowledge/medline/medlineHandlers.py: medlineParser, isMedlineFile; metaknowledge/recordCollection.py: RecordCollection.writeFile"]}
{"id": "C59", "title": "Scopus files round trip", "statement": "Reading the file written for a collection of Scopus records gives back the same records; the cells of a row belong to the columns named by the header of the file.", "quantifier": "all collections of Scopus records, all headers", "why_tests_cant": "Every record list and every order of columns.", "anchors": ["metaknowledge/scopus/scopusHandlers.py: scopusParser, isScopusFile; metaknowledge/recordCollection.py: RecordCollection.writeFile"]}
{"id": "C60", "title": "Reading the abbreviation pages", "statement": "Each abbreviation on a downloaded page of journal abbreviations gets the names the page lists for it, in the order of the page; with several pages, the last page that has the abbreviation decides.", "quantifier": "all pages, all numbers of pages", "why_tests_cant": "Every arrangement of titles and abbreviations on a page.", "anchors": ["metaknowledge/journalAbbreviations/backend.py: _getDict, _getCurrentj9Dict, updatej9DB"]}
{"id": "C61", "title": "csv files of a collection", "statement": "The file writeCSV() writes, read back with the same delimiter and quote character, has as first row the columns (with a selection exactly the selected tags, otherwise the first tags followed by every other tag of the records, each once, in the order in which they come up; then the author and gender counts) and then, in the order of the collection, one row for each record with the text of its value for each column, lists joined by the list delimiter and missing values empty. With splitByTag one such text is written for each value of the tag that some record has, and no other, holding the row of each record as often as the record has the value. A column without a long name makes longNames raise KeyError.", "quantifier": "all collections, all tag values (including ones with quotes, delimiters and line ends), all options", "why_tests_cant": "Quoting must be right for every text, and the columns and the split depend on all the records.", "anchors": ["metaknowledge/recordCollection.py: RecordCollection.writeCSV"]}
{"id": "C62", "title": "Collections share nothing", "statement": "Copying a collection gives a collection with the same members, recorded types, name, mark and errors; from then on, and for the results of the set operators, changing one collection never changes another: along any history of making, copying, combining and changing collections every collection shows what it would show if all the others did not exist.", "quantifier": "all histories over any number of collections, all elements, every choice pop may make, operands that are the same object", "why_tests_cant": "Sharing of a set or dictionary between two objects shows only after particular sequences of copies and in-place changes.", "anchors": ["metaknowledge/mkCollection.py: Collection.copy, clear, __ior__ and the other operators"]}
{"id": "C63", "title": "Tables of citations count exactly", "statement": "getCitations of a record or a collection considers exactly the citations of the records that pass the filter (all of them without a field; with a field those that have the attribute, and with values those whose attribute is one of them), keeping repetitions. The table made of them has one row for each different citation, with its text and attributes, None for missing ones. With counts, each row holds how often the citation occurs, that divided by the number of all citations, and that divided by the number of citations of its year; the counts add up to the number of citations and the fractions to one. No KeyError ever occurs.", "quantifier": "all lists of citations, all choices of field and values, every iteration order of the set of citations", "why_tests_cant": "The loop over a set has an order the test cannot choose, the counts are shared between citations and years in one dictionary, and repetitions can be spread over records in any way; tests look at a few rows.", "anchors": ["metaknowledge/mkRecord.py:Record.getCitations", "metaknowledge/mkRecord.py:_pandasPrep", "metaknowledge/recordCollection.py:RecordCollection.getCitations"]}
{"id": "C64", "title": "Which records are the same", "statement": "Records of one source are equal exactly when they have the same ID (bad ones: the same fields and error), equality is reflexive, symmetric and transitive, equal records have equal hashes, and records of different sources are never equal even with the same ID. So a set of good records read from files keeps exactly one record for each source and ID, the first one added.", "quantifier": "all records of the classes the readers make, all hash functions, all sequences of additions", "why_tests_cant": "The laws of equality range over all pairs and triples of records of ten classes, with reflected calls of __eq__ and with any hash function of the interpreter; tests compare a few pairs.", "anchors": ["metaknowledge/mkRecord.py:Record.__hash__", "metaknowledge/mkRecord.py:Record.__eq__"]}
{"id": "C65", "title": "BibTeX entries and files", "statement": "The BibTeX entry of a good record lists the authors and then each field once, one line each, in order (with the restriction exactly the common fields the record has). Its key identifies the record: without nice IDs it is the ID of the record. A nice key is made of first author, date and title words, longest first, until 35 characters, with the ID added when it would be shorter than 30. writeBib writes one entry for each good record after the header, leaving bad ones out.", "quantifier": "all records, all values and tags without line breaks, all limits and options, all collections in every order", "why_tests_cant": "Uniqueness of keys and the structure of the entry depend on arbitrary titles and names; tests check that some text appears in one file.", "anchors": ["metaknowledge/mkRecord.py:ExtendedRecord.bibString", "metaknowledge/recordCollection.py:RecordCollection.writeBib", "metaknowledge/constants.py:commonRecordFields"]}
{"id": "C66", "title": "expandedCore adds the other authors' citations of a record without losing anything", "statement": "With expandedCore = True the citation and co-citation networks get, for every record of the collection that is in the network, a node for the citation under each of its later authors, with the attributes of the node that was there, with its links and their weights, and joined to it. Nothing that was in the network is lost, no link is added except from a citation of a record to another of its citations or to a neighbour of one, and a record none of whose citations is in the network changes nothing. In a weighted or directed network the expansion never raises. The code departs from the documentation where both citations are in an unweighted network already (they are not joined), where only a later citation is in the network (the earlier are not added), for weights that were there (they are overwritten), and in unweighted co-citation networks, where it can raise RuntimeError.", "quantifier": "every network, directed or not, weighted or not, and every list of records with any number of author citations, repeated or not", "why_tests_cant": "What is copied depends on the order of records and authors and on the links made by the records expanded before; tests expand one small collection.", "anchors": ["metaknowledge/recordCollection.py:expandRecs", "metaknowledge/recordCollection.py:networkCoCitation", "metaknowledge/recordCollection.py:networkCitation"]}
{"id": "C67", "title": "The fields of an NSF award are those of its file", "statement": "Reading an NSF award file gives a grant with one entry per investigator in the order of the file (first names, last names, then the other texts after a semicolon), whose names getInvestigators returns in that order; the directorate and division of each organisation in order; for every other element the text of the element, or a list with the texts of the parts of every element of that name. A field exists only if the file has an element of that name, and the grant is known by its award number, or is bad and known by its file name if there is none. Reading fails for exactly those files in which an element with parts follows one of the same name without parts (an uncaught AttributeError); an empty award number gives the good id NSF:None; of repeated elements without parts only the last is kept.", "quantifier": "every tree of an award, with any elements, repeated or empty, in any order", "why_tests_cant": "Award files differ in which elements are repeated, empty or nested, and the fields depend on the order of elements of the same name; tests read a few downloaded files.", "anchors": ["metaknowledge/grants/nsfGrant.py:parserNSFfile", "metaknowledge/grants/nsfGrant.py:NSFGrant", "metaknowledge/grants/baseGrant.py:getInvestigators"]}
{"id": "C68", "title": "Every row of a csv file of grants becomes one grant", "statement": "Reading a csv file of grants (a CIHR file after its three leading lines, or any other table) gives one grant for every row that is not empty, in the order of the file, with the values of the row under the headings; a value that is missing is None, values too many are kept under None. Grants of different rows have different ids whatever their contents, so none is lost in the collection. A CIHR grant is bad exactly if it has no investigator's name. A file is taken for an NSERC file or a table of grants exactly if its name and its rows fit. Reading a whole file is not an error. (On Python 3.7 and later it always is: the end of the file reaches a generator as StopIteration, so every such collection is marked bad; a last row that ends inside quotes is lost. A row too short for the names is not bad. Bad grants are equal when their values are, so of several equal rows without a name only one is kept. The ids change from run to run with the hash of strings.)", "quantifier": "every text of a file, with rows of any length, quoted line ends, empty rows and repeated rows, and every hash function", "why_tests_cant": "Row boundaries, blank rows, short and long rows and hash values range over all files and runs; tests read two files under one interpreter.", "anchors": ["metaknowledge/grants/baseGrant.py:csvAndLinesReader", "metaknowledge/grants/baseGrant.py:parserFallbackGrantFile", "metaknowledge/grants/baseGrant.py:isFallbackGrantFile", "metaknowledge/grants/cihrGrant.py:parserCIHRfile", "metaknowledge/grants/nsercGrant.py:isNSERCfile"]}
{"id": "C69", "title": "The fields of a WOS record have the values the file writes", "statement": "For every WOS record and every tag, reading the field gives the value written in its lines: titles, texts and names joined by blanks (in upper case for journals and publishers) so that it does not matter where the file breaks a line; e-mail addresses, identifiers, grants, subjects and keywords as the list that is separated by '; ' in the text, recovered entry by entry; sponsors as the concatenation of the lists of the lines; counts and the year as integers, with ValueError for anything else; addresses without the bracketed names of their authors, in order; authors and citations line by line. The month is a number from 1 to 12 for each documented name of a month or season, in any case and followed by a day, a year or a second month. Only counts, month and year can raise for a field without empty lines. (Identifiers, document types, reprint addresses and the like keep their first line only; a month written with digits is returned as a text, not an integer, and the documented form 'Year Month Day' gives the year; an address whose bracket is not closed is lost.)", "quantifier": "every tag, every list of lines, every interpretation of str.upper, str.lower, str.strip, str.isdigit and int", "why_tests_cant": "fields are wrapped and separated in unboundedly many ways; the tests read the fields of one sample file", "anchors": ["metaknowledge/WOS/tagProcessing/tagFunctions.py:tagToFunc", "metaknowledge/WOS/tagProcessing/helpFuncs.py:getMonth", "metaknowledge/WOS/recordWOS.py:WOSRecord.tagProcessingFunc"]}
{"id": "C70", "title": "The fields of a Medline record have the values the file writes", "statement": "For every Medline record: the year is the number the date begins with, or the first one to four digits in its first word, or 0 when there are none, and reading it never raises if there is a date; the month is that of the second word; the volume and the first page are the first word and first number of their fields, without 'suppl'; the DOI is the first identifier marked [doi], and KeyError is raised exactly if there is none; affiliations and identifiers are given by author, with the whole text of an affiliation except line breaks and semicolons, and the address of the record is the first one of its first author. (An author with several affiliations on lines of their own keeps only the last; a hyphen before the year makes it negative; a field with a tag outside the table raises KeyError when read.)", "quantifier": "every record, every content of its fields, every interpretation of int and of the digits", "why_tests_cant": "dates, pages and affiliations are free text; the sample files contain a few of their forms", "anchors": ["metaknowledge/medline/tagProcessing/specialFunctions.py:year", "metaknowledge/medline/tagProcessing/specialFunctions.py:DOI", "metaknowledge/medline/tagProcessing/specialFunctions.py:beginningPage", "metaknowledge/medline/tagProcessing/tagFunctions.py:AD", "metaknowledge/medline/tagProcessing/tagFunctions.py:medlineTagToFunc"]}
{"id": "C71", "title": "The fields of Scopus and ProQuest records have the values the file writes", "statement": "For every Scopus record the lists in its columns (authors, keywords, affiliations, grants, references, sponsors) are recovered entry by entry from the text of the column, nothing of the text is lost, years and counts are the integers written, and other columns are their text. For every ProQuest record the fields of one line are that line, subjects, keywords and classifications are recovered, and the names shared by all records (authorsShort, authorsFull, keywords, abstract, year, title) give the record's values. (authorsFull of every ProQuest record is the word 'Author'; its year is a text where other records have an integer; its first page is 0. A comma in an author's name cuts a Scopus author in two.)", "quantifier": "every record, every content of its columns or fields", "why_tests_cant": "the contents are free text; the tests read the fields of one sample file", "anchors": ["metaknowledge/scopus/tagProcessing/tagFunctions.py:scopusTagToFunction", "metaknowledge/proquest/tagProcessing/tagFunctions.py:proQuestTagToFunc", "metaknowledge/proquest/tagProcessing/specialFunctions.py:proQuestSpecialTagToFunc"]}
{"id": "C72", "title": "The table printed by glimpse fits the terminal and shows the ranked values", "statement": "With compact=True every line of glimpse is exactly as wide as the terminal, the table has two lines fewer than the terminal (so that it fits with the prompt), and row i shows, for every column in order, the rank and the i-th value, right-aligned or cut with a full stop, and NA where the column is shorter. Without compact no value line is wider than the terminal and each block shows the first half-height of values. Terminals that are too small are replaced by 80 by 24.", "quantifier": "every collection, every list of columns with their ranked values, every width of at least 55 and height of at least 7", "why_tests_cant": "widths are distributed over the columns by a remainder loop, headers switch layout at certain widths, and terminals have all sizes; tests run at one size", "anchors": ["metaknowledge/RCglimpse.py:makeHeader", "metaknowledge/RCglimpse.py:prepEntry", "metaknowledge/RCglimpse.py:makeTable", "metaknowledge/RCglimpse.py:_glimpse", "metaknowledge/mkCollection.py:glimpse"]}
{"id": "C73", "title": "A ProQuest file gives exactly the records of its documents, checked against its table of contents", "statement": "Reading a ProQuest file returns records without an error exactly when the file has the format (table of contents, documents numbered in it whose title is the one listed, second Bibliography line), and then one record is read for every document, in order; the set that is returned has the first of all records with one document ID (or, without IDs, with equal values). For any other file the documents in front of the first bad one are returned together with an error that names the reason.", "quantifier": "every list of lines and every way numbers are read", "why_tests_cant": "the reader hands a shared line iterator between two loops and the record reader; a file can end or be damaged at any line", "anchors": ["metaknowledge/proquest/proQuestHandlers.py:proQuestParser", "metaknowledge/proquest/recordProQuest.py:proQuestRecordParser"]}
{"id": "C74", "title": "The tables of diffusionCount and the counts added to a graph say what was counted", "statement": "diffusionCount(..., pandasFriendly = True) gives columns of equal length whose rows are exactly the counted sources (or source and extra value pairs): each row shows the source or its fields, its count, its number of authors and, with compareCounts, its count within the source collection. diffusionAddCountsFromSource gives every node of the graph the count of the key with its name, or 0, and changes nothing else.", "quantifier": "all source and target collections, tags, extra fields, mappings, options, graphs and dictionaries of counts", "why_tests_cant": "The rows depend on every pair of a citation and a source; unit tests compare a few cells of two collections.", "anchors": ["metaknowledge/diffusion.py: diffusionCount", "metaknowledge/diffusion.py: diffusionAddCountsFromSource"]}
{"id": "C75", "title": "The nodes of a citation network say which records they stand for and what those records hold", "statement": "In co-citation and citation networks with nodeInfo, a node for the citation of a record of the collection carries that record's id, inCore = True and the values asked for by detailedCore, so that each can be read back; any other node carries inCore = False and the parts of its citation; the attributes count, fullCite and citations are there exactly when asked for.", "quantifier": "all collections, citations, node types, lists of tags and options", "why_tests_cant": "The attributes depend on the fields of any record, whose values may be strings, lists, numbers or missing; unit tests look at one node.", "anchors": ["metaknowledge/recordCollection.py: makeNodeTuple", "metaknowledge/recordCollection.py: RecordCollection.networkCoCitation", "metaknowledge/recordCollection.py: RecordCollection.networkCitation", "metaknowledge/citation.py: Citation.allButDOI"]}
{"id": "C76", "title": "graphStats gives the statistics asked for, and no others", "statement": "graphStats(G, stats) raises RuntimeError exactly when stats has an unknown name. As a tuple it has one value for each name, at the same place; as text it has one line (or one part of the sentence) for each distinct name, in a fixed order, with the numbers of nodes, edges, isolated nodes and self loops of the graph.", "quantifier": "all graphs, lists of names (with repeats, in any order, or empty) and both layouts", "why_tests_cant": "There are infinitely many lists of names and graphs; in particular graphs of a million nodes or more are never tested.", "anchors": ["metaknowledge/graphHelpers.py: graphStats"]}
{"id": "C77", "title": "Citation of a Scopus record", "statement": "The citation created for a Scopus record names the record's first author, year and journal, in upper case, and its volume and page, and its id is made of author, year and journal, whatever the title; a citation that cannot be read takes year, journal and title from the record; asking for one citation per author gives as many citations as there are authors, each of its author.", "quantifier": "all Scopus records, all values of their fields", "why_tests_cant": "The string is put together from free text and read back by a backtracking pattern; that no title can mislead it must hold for every title.", "anchors": ["metaknowledge/scopus/recordScopus.py: ScopusRecord.createCitation", "metaknowledge/citation.py: Citation, scopusCiteRegex"]}
{"id": "C78", "title": "A copy of a record is decoupled from it", "statement": "R.copy() gives a record that is completely decoupled from R: whatever a program does with the values it gets from the copy (or from copies of copies) - reading them, changing the lists - R has the same raw fields, is written to the same text and R[k] is what it was, for every tag k, and the other way round; a change to a list got from one record shows only in that record's own later reads of that tag, under both of its names.", "quantifier": "every record class with two-way tag names, every record, and every finite program of reads, copies and changes of lists got from reads", "why_tests_cant": "Sharing shows only after particular sequences of copy, read and in-place change; tests copy a record and compare ids or equality, and equality of records looks at ids only.", "anchors": ["metaknowledge/mkRecord.py: Record.copy, Record.__getstate__, ExtendedRecord.__getstate__, ExtendedRecord.__getitem__, ExtendedRecord.values, ExtendedRecord.items", "metaknowledge/WOS/recordWOS.py: WOSRecord.tagProcessingFunc, WOSRecord.getAltName", "metaknowledge/WOS/tagProcessing/tagFunctions.py: authorsFull, authorsShort, editors, editedBy, bookAuthor, bookAuthorFull"]}
{"id": "C79", "title": "A notebook made from a markdown file contains every line of the file", "statement": "Converting a markdown file with mdToNb gives a notebook whose cells, read back as JSON, contain the non-empty lines of the file in order: lines that start with a number in brackets in code cells, without the brackets, all other lines in markdown cells. Consecutive code lines with the same number form one code cell; a different number starts another.", "quantifier": "every markdown file", "why_tests_cant": "The converter is a state machine over the lines of a file whose output is built by string replacement and slicing; it must be right for every sequence of lines and every character in them.", "anchors": ["metaknowledge/bin/metaknowledgeMdToNb.py: convertString, stringPreprossesing, writeMDcell, writePYcell"]}
{"id": "C80", "title": "The filters of the command line tool do what its menu says", "statement": "After a filtering dialogue of the command line tool the network is the generated one with the chosen filters applied in order: isolated nodes, self loops, edges lighter or heavier than the number typed, nodes of lower or higher degree than the number typed are removed, and nothing else is.", "quantifier": "every network and every sequence of lines typed at the menus", "why_tests_cant": "The dialogue accepts any sequence of filters, numbers and mistyped lines and changes the network in place each time.", "anchors": ["metaknowledge/bin/metaknowledgeCLI.py: getThresholds, inputMenu, getNum", "metaknowledge/graphHelpers.py: dropEdges, dropNodesByDegree"]}
{"id": "C81", "title": "The command line tool overwrites no file without a yes", "statement": "When the command line tool writes a file that already exists, the user has been asked about that file and has agreed; otherwise the file written is new. The name of the file is the one typed, with the suffix of its kind.", "quantifier": "every sequence of lines typed, every set of existing files", "why_tests_cant": "Whether a file is destroyed depends on the history of a dialogue of unbounded length with refusals, mistyped answers and repeated names.", "anchors": ["metaknowledge/bin/metaknowledgeCLI.py: getOutputName, yesorNo, outputNetwork"]}
{"id": "C82", "title": "Sums of collections and their binary form", "statement": "rc1 + rc2 is a new collection with exactly the records of the two, each once, named with both names; operands with errors give a sum with those errors. bytes(rc) of WOS records is what writeFile writes between the header and the end mark, so it can be read back.", "quantifier": "every collection, every second operand that can be iterated over", "why_tests_cant": "The sum is a loop over two sets in arbitrary order; the binary form must agree with the file writer for every collection.", "anchors": ["metaknowledge/recordCollection.py: RecordCollection.__add__, RecordCollection.__bytes__, RecordCollection.writeFile", "metaknowledge/mkCollection.py: Collection.add"]}
{"id": "C83", "title": "The texts of a citation", "statement": "str(c) is the string the citation was made from; c.Extra() is exactly the volume, page, DOI and other text that c.ID() leaves out, in this order; c.allButDOI() is ID and extra values without the DOI.", "quantifier": "every citation string", "why_tests_cant": "The parts come out of a regular expression with optional parts; the texts must be right for every combination of parts present.", "anchors": ["metaknowledge/citation.py: Citation.Extra, Citation.allButDOI, Citation.ID, Citation.__str__"]}
{"id": "C84", "title": "The copyright statements of a collection", "statement": "findProbableCopyright returns every copyright statement found at the end of an abstract of the collection exactly once, and nothing else, whatever the order of the records.", "quantifier": "every collection and all abstracts", "why_tests_cant": "Holds for all abstracts and all iteration orders of the collection.", "anchors": ["metaknowledge/recordCollection.py: RecordCollection.findProbableCopyright, findCopyright"]}
{"id": "C85", "title": "A co-investigator network is built from what each grant gives by itself", "statement": "The network of `networkCoInvestigator` (and `networkCoInvestigatorInstitution`) is the co-occurrence network of the names that `getInvestigators` (`getInstitutions`) returns for each grant when called on it alone with the same tags and separator. What one grant contributes does not depend on the other grants or on the order in which the collection hands them out, and the list of tags the caller passes is as it was afterwards.", "quantifier": "all collections of grants of any mix of classes and any fields, all values of targetTags (none, one tag, a list) and separators, all orders of the collection", "why_tests_cant": "the effect shows only in how calls on different grants interact through a shared argument, and grows with the number of grants; any order of the set is possible, tests see one", "anchors": ["metaknowledge/grantCollection.py: GrantCollection.networkCoInvestigator, networkCoInvestigatorInstitution", "metaknowledge/grants/nsfGrant.py: NSFGrant.getInvestigators, getInstitutions", "metaknowledge/grants/nsercGrant.py: NSERCGrant.getInvestigators, getInstitutions"]}
{"id": "C86", "title": "Every kind of record understands the common names", "statement": "title, year, volume, beginningPage, journal, j9, keywords, abstract, authorsShort, authorsFull, id, grants, DOI, address and selfCitation give, whatever was read before, the value of the field of the file format that holds them (for Medline: what the year, month, volume, page, DOI and address rules make of it); they raise what reading that field raises; names that are neither a field nor a common name raise KeyError.", "quantifier": "all records of the four kinds, all fields, all finite sequences of earlier accesses", "why_tests_cant": "The names go through a table of functions that read other fields and fill the memo; a wrong entry or an order of access that finds a stale value shows only for particular records and histories.", "anchors": ["metaknowledge/medline/tagProcessing/specialFunctions.py: medlineSpecialTagToFunc", "metaknowledge/scopus/tagProcessing/specialFunctions.py: scopusSpecialTagToFunc", "metaknowledge/proquest/tagProcessing/specialFunctions.py: proQuestSpecialTagToFunc", "metaknowledge/mkRecord.py: ExtendedRecord.__getitem__, createCitation"]}
{"id": "C87", "title": "The command line tool makes what is chosen in its menus", "statement": "From the lines typed at the prompts of the tool it is determined, and can be read off, what is done: the network of the kind and the tags chosen, the file of the kind and the name chosen, the database chosen, and the output chosen for a network. Lines that are no entry of a menu, no tag of the collection, neither yes nor no, or no usable name are asked again and have no effect; a network is made afterwards exactly for the entries that say so. The collection holds each record of all the files given, or of the first line typed all of whose files exist, once. The file of citations has each citation once, restricted to journals if asked.", "quantifier": "all finite sequences of lines typed, all collections and tags, all existing files, all values of --name, with or without the plotting module", "why_tests_cant": "the dialogues loop and recurse on what is typed, so the number of sequences is unbounded, and a test types one of them", "anchors": ["metaknowledge/bin/metaknowledgeCLI.py: inputMenu, Tag, getFiles, getWhatToDo, getNetwork, outputNetwork"]}
{"id": "C88", "title": "Going over the citations asks for each unknown journal once and records the answer", "statement": "The entry of the command line tool that goes over the citations asks exactly for the cited journals that have no entry in the WOS and the named manual database, each once and in the order of the citations. A journal answered with yes is in the named database afterwards, one answered with no is there to be skipped, everything else in the databases is as before, and citations without a journal are passed over.", "quantifier": "all collections, all contents of the databases, all sequences of lines typed, the default or another database", "why_tests_cant": "which questions come depends on the order of the citations, on earlier answers and on the databases together; the same journal cited again meets what the answer left in memory", "anchors": ["metaknowledge/bin/metaknowledgeCLI.py: getWhatToDo", "metaknowledge/citation.py: Citation.isJournal, addToDB", "metaknowledge/journalAbbreviations/backend.py: addToDB, getj9dict"]}
{"id": "C89", "title": "A tag given for the edges of a network splits its edges by the values of that tag", "statement": "networkOneMode, networkMultiLevel, networkTwoMode and networkMultiMode given a tag for the edges make a network with one edge between two values for every value of that tag they co-occur with; with weights its weight is the number of those co-occurrences; the nodes are the values that occur, with the counts they have in the network without that tag.", "quantifier": "all collections and orders of visiting, all fields of records (missing, one value, a list), all tags, stemmers and options", "why_tests_cant": "the edges depend on every combination of values of three tags in every record, and whether a combination repeats depends on the whole collection", "anchors": ["metaknowledge/mkCollection.py: CollectionWithIDs.networkMultiLevel, networkOneMode, networkTwoMode, networkMultiMode (edgeAttribute)"]}
{"id": "C90", "title": "A tag given for the nodes of a network lists with each node the values of its records", "statement": "networkOneMode and networkMultiLevel given a tag for the nodes give each node the list of the values that tag has in the records the node occurs in, no value twice, and otherwise make the network they make without that tag.", "quantifier": "all collections and orders of visiting, all fields of records, all tags, stemmers and options", "why_tests_cant": "the list of a node is built up over all records of the collection, and is shared with other nodes or not depending on the order in which they are met", "anchors": ["metaknowledge/mkCollection.py: CollectionWithIDs.networkMultiLevel, networkOneMode (nodeAttribute)"]}
{"id": "C91", "title": "Collections can be made from any iterable and combined with ordinary sets", "statement": "RecordCollection(it) and GrantCollection(it) hold exactly the records or grants that the iterable it gives, whatever kind of iterable it is, and raise if it gives anything else. The operators |, &, -, ^, |=, <, <=, == and isdisjoint treat collections as sets, also when the other operand is an ordinary set or a collection of the other class: they give the members of the union, intersection, difference or symmetric difference, the answer about the members, or raise, and never lose members silently.", "quantifier": "all iterables, lists and iterators alike, all names and options, all collections of either class, all ordinary sets and all operators", "why_tests_cant": "most of the methods involved are inherited from the standard library and are reached only for mixed operands; what they return depends on the classes and contents of both operands", "anchors": ["metaknowledge/recordCollection.py: RecordCollection.__init__ (from an iterable)", "metaknowledge/grantCollection.py: GrantCollection.__init__ (from an iterable)", "metaknowledge/mkCollection.py: Collection (operators, and those inherited from collections.abc.MutableSet)"]}
{"id": "C92", "title": "The progress display ends with the operation it belongs to and never disturbs it", "statement": "However the display thread and the work are interleaved: what is written are whole pictures of the bar followed by the last line, never mixed; a picture shows only parts done and texts that the operation gave, and never goes back if the operation does not; when the operation is over the thread has ended and nothing more is written; the operation never waits for more than one picture; and in quiet mode nothing is written.", "quantifier": "all interleavings of the thread with the operation, all sequences of updates, texts, widths of the terminal and times, graphs of all sizes", "why_tests_cant": "two threads share the attributes of the bar without locks; what is written depends on the schedule, and a thread left behind goes on after the test", "anchors": ["metaknowledge/progressBar.py: _ProgressBar.__init__, updateVal, finish, __exit__, __del__, threadedUpdate", "metaknowledge/graphHelpers.py: writeEdgeList, writeNodeAttributeFile (bars made without with)"]}
{"id": "C93", "title": "A whole session of the command line tool does what was typed, and touches no other file", "statement": "A session of the command line tool reads the files given or typed, does the job chosen with the collection and, if the job asks for it, makes the network chosen, applies the filters chosen and writes the output chosen, in this order; the files afterwards are those before with the named files replaced by what was chosen. Names are checked against the files as they are at that moment, including a file written earlier in the session. However the session ends, no file changes that was not named in it, a file that was there before is only changed after a yes, and quitting or interrupting leaves only what the finished job wrote. Every session typed properly ends normally when nothing raises, and the exit status is 0 exactly for sessions that end normally.", "quantifier": "all finite sequences of lines typed, all files on the command line, all file systems, all collections and networks, all points at which the input ends, the user quits or interrupts, and all failures of readers and writers", "why_tests_cant": "The dialogues share the typed lines and the files, and a wrong hand-over between them (lines read twice, names checked against old files, a filter applied to the wrong graph) only shows for particular combinations of choices and existing files; tests replay a few dialogues.", "anchors": ["metaknowledge/bin/metaknowledgeCLI.py: mkCLI, getFiles, getWhatToDo, getNetwork, getThresholds, outputNetwork", "setup.py: entry_points", "metaknowledge/graphHelpers.py: writeGraph"]}
{"id": "C94", "title": "Lists of tags can be used for several calls", "statement": "Calls that are given the same list of tags, one after the other (as onlyTheseTags of makeDict() and writeCSV(), as firstTags of writeCSV(), as extraColumns of forNLP()), give what each of them gives with a list of its own, whatever collections they are made on and whatever came before; the list is as it was afterwards, and a tuple does as well as a list.", "quantifier": "all lists, all series of calls of any length, on all collections and with all other options", "why_tests_cant": "Needs all histories of calls that share an argument; a test calls each function once with a literal.", "anchors": ["metaknowledge/recordCollection.py: RecordCollection.makeDict, RecordCollection.writeCSV, RecordCollection.forNLP", "metaknowledge/WOS/tagProcessing/funcDicts.py: fullToTagDict"]}
{"id": "C95", "title": "The years between citing and cited works on the edges of a citation network", "statement": "In a weighted citation network whose nodes are full citations or the original citation strings, every edge carries `yearDiff`: the number of years between the two works it joins, or None when the year of one of them is not known. The value does not depend on the order in which records are visited or citations are listed, on how often the citation is repeated, on the direction asked for, or on whether the graph is directed. In every other citation network no edge has the attribute, and asking for it changes nothing else: nodes, counts, edges and weights are those of the network without it.", "quantifier": "all collections of records with any citation lists, all filters and node options, both directions, directed or not, and all orders of the records and of their citations", "why_tests_cant": "The test looks up three edges of one file. The attribute is written only when an edge is first added, so whether later citations agree with it depends on every history of citations, and on which citations share an id.", "anchors": ["metaknowledge/recordCollection.py: addToNetwork, RecordCollection.networkCitation", "metaknowledge/citation.py: Citation.__init__"]}
{"id": "C96", "title": "The csv files of rankedSeries, timeSeries, forBurst and forNLP hold what the functions return", "statement": "If outputFile is given, the file written can be read back with a csv reader (Python's default dialect), whatever characters the values have. rankedSeries: a header with the tag and 'count', then each pair of value and number of occurrences, in the order of the series; no file is written if the arguments are refused. timeSeries: a header, then one row for each value with each of the years in which it occurs once, separated by '|'; without a tag one row for each record with a year. forBurst: one row for each word with its year, in order (the code writes no header). forNLP: a header, then one row per record, in order, whose cells are the cells of that record in the returned columns (the code breaks this when an extra column is named twice: cells of other records are written). The same text is written on every platform (the code breaks this for rankedSeries and timeSeries: the files are opened without newline = '', so on Windows every row is followed by an empty one).", "quantifier": "all collections, tags, options, limits and values, with any characters in the values", "why_tests_cant": "whether quoting and the order of columns and rows are right for every value and every list of extra columns is not settled by the files of a few records", "anchors": ["metaknowledge/mkCollection.py:rankedSeries", "metaknowledge/mkCollection.py:timeSeries", "metaknowledge/recordCollection.py:forBurst", "metaknowledge/recordCollection.py:forNLP"]}
{"id": "C97", "title": "Citation profiles of a co-authorship network", "statement": "networkCoAuthor(citeProfile = True) gives every author the attributes citeProfileCites and citeProfileCounts: the citations in the author's records, each once, and in the same order the number of times each is cited there; everything else in the network is as without profiles. The code breaks this: authors who first appear in the same record share one profile, so each is also given the citations of the others' later records, and a record's citations are counted once per place in the list of authors (three times in all when two new authors wrote it).", "quantifier": "all collections, in any order of iteration, all authors, citations and options", "why_tests_cant": "whether profiles are shared or overcounted depends on which authors first appear together and on later records, so it shows only across a whole history of records", "anchors": ["metaknowledge/recordCollection.py:networkCoAuthor"]}
{"id": "C98", "title": "writeGraph writes two files under the name it is given, and touches no other file", "statement": "writeGraph(G, name, ...) writes the files name_edgeList.suffix and name_nodeAttributes.suffix (with _directed or _undirected before the suffix if typing is set) in the directory the name leads to; the two are always different files, no other file changes, and readGraph given any paths to them returns the graph as far as csv files hold it. With overwrite=False no file that exists is ever changed, whatever the name, the options and the outcome, and an OSError is raised if one of the two files is there. Graphs written under names leading to different places never touch each other's files. The exceptions: a name ending with a slash does not name a directory, the empty name gives hidden files, ~/../x is x in the current directory, and edgeInfo=False raises after an existing edge list has been emptied.", "quantifier": "every path as name, every current directory and state of the files, every graph, all combinations of options", "why_tests_cant": "The name is taken apart and put together by the rules for paths (dots, double slashes, parents, home directories); tests try a few names in one directory and do not look at files that should not have changed.", "anchors": ["metaknowledge/graphHelpers.py:writeGraph", "metaknowledge/graphHelpers.py:writeEdgeList", "metaknowledge/graphHelpers.py:writeNodeAttributeFile", "metaknowledge/graphHelpers.py:readGraph"]}
{"id": "C99", "title": "The file a RecordCollection writes", "statement": "writeFile() changes exactly one file: the one named or, without a name, one in the current directory called after the first 200 characters of the collection's name with .txt behind; nothing else in the file system changes, and if the file cannot be opened nothing does. A collection of usable records of one source (Web of Science, Medline, Scopus) that has noted that source is written to a file that RecordCollection recognises as being from the source and reads back as the same records. A collection of any mixture is written as the texts of its records one after the other. A collection read from a path can be written without giving a name, and a failing write does not destroy an older file.", "quantifier": "all file systems, working directories, names, sets of noted types and lists of records of the four kinds, for both encodings used", "why_tests_cant": "The header, the encoding and the name depend on bookkeeping (the noted types) that operators, constructors and add treat differently, so that which files can be read again depends on the whole history of the collection and on the first record in set order; tests write one collection fresh from a file.", "anchors": ["metaknowledge/recordCollection.py: RecordCollection.writeFile, RecordCollection.__init__", "metaknowledge/mkCollection.py: Collection.__or__, Collection.__ior__, Collection.add", "metaknowledge/WOS/recordWOS.py: WOSRecord.writeRecord, WOSRecord.encoding", "metaknowledge/medline/recordMedline.py: MedlineRecord.writeRecord, MedlineRecord.encoding", "metaknowledge/scopus/recordScopus.py: ScopusRecord.writeRecord", "metaknowledge/proquest/recordProQuest.py: ProQuestRecord.writeRecord"]}
{"id": "C100", "title": "Every markdown file given to mdToNb becomes one readable notebook beside it", "statement": "For any list of existing markdown files the command mdToNb writes, for each of them, one notebook in the same directory with the same name and the extension .ipynb, and changes no other file; if a file does not exist nothing is converted. What it writes is, as a whole file, JSON for a notebook (nbformat 4.0) whose cells hold the lines of the markdown file in order.", "quantifier": "all lists of paths, file systems, working directories and texts", "why_tests_cant": "Paths with .., dots and missing extensions, names that differ only in the extension, inputs that are notebooks themselves and arbitrary texts in JSON strings are too many to test; the tests do not cover the command.", "anchors": ["metaknowledge/bin/metaknowledgeMdToNb.py: convertString, convert, writeMDcell, writePYcell, stringPreprossesing, mkMdToNb"]}
{"id": "C101", "title": "quickVisual colours nodes by their type", "statement": "quickVisual draws every node of a typed graph in the colour of its type: nodes of the same type get the same colour and nodes of different types different colours; a graph without types is drawn in one colour, and a graph in which only some nodes have a type is refused.", "quantifier": "all graphs, as the sequence of the types (if any) of their nodes", "why_tests_cant": "The colour of a node depends on all types met before it, in node order, and the refusal on where the first untyped node stands; the tests do not look at the picture.", "anchors": ["metaknowledge/contour/plotting.py: quickVisual"]}
{"id": "C102", "title": "The density plot counts every node in the cell it lies in", "statement": "For every layout in the documented square, centred at the origin with the half side layoutScaleFactor, graphDensityContourPlot counts every node once, in the cell of the grid in which the node lies, and draws the overlay in the same coordinates; layouts that do not fit, a scale factor of 0 and arguments of the wrong type are refused.", "quantifier": "all grid sizes, scale factors and layouts with rational coordinates", "why_tests_cant": "Rounding, scaling and Python's negative indices interact for every position; a wrong cell shows only as a slightly different picture, which no test looks at.", "anchors": ["metaknowledge/contour/plotting.py: graphDensityContourPlot"]}
{"id": "C103", "title": "Several programs can load one directory with a cache at the same time", "statement": "When any number of programs run RecordCollection(directory, cached = True) side by side on one directory whose files do not change, every load that is not killed ends, and gives the collection that reading the files gives, whatever the interleaving of their accesses to the cache file and whichever of them are killed on the way; afterwards the cache serves later loads.", "quantifier": "every number of programs, every interleaving of their accesses to the cache file (down to single bytes), every set of kill points, every previous content of the cache file, every pickled form of the collection", "why_tests_cant": "The failures show only in particular interleavings and kill points, of which there are unboundedly many; a test runs one load at a time.", "anchors": ["metaknowledge/mkCollection.py:Collection._loadFromCache", "metaknowledge/mkCollection.py:Collection._createCache", "metaknowledge/recordCollection.py:RecordCollection.__init__"]}
{"id": "C104", "title": "From a Web of Science file to its networks and tables", "statement": "Loading a Web of Science file and asking the collection for a network or a table gives what counting over the papers in the file gives. The co-author network joins two authors as often as a paper lists both, so that for papers that list nobody twice the weight is the number of papers by both; its nodes are the authors listed. The co-citation network joins two cited works as often as a paper cites both, with the works left out that the options name. The network of subjects (or of another list) joins two as often as a paper has both, however the file breaks the list into lines. The ranking of authors or years lists each once with the number of its papers. None of this depends on the order in which the set of records is gone through or on what was read of the records before.", "quantifier": "all files of papers with any fields, all origins of the file, all orders of the records, all earlier reads, all options named", "why_tests_cant": "It composes the reader, the names of the tags, the processing of fields, the memo of a record, the parsing of citations and the building of graphs; tests have two or three fixed files.", "anchors": ["metaknowledge/WOS/wosHandlers.py:wosParser", "metaknowledge/mkRecord.py:ExtendedRecord.__getitem__", "metaknowledge/WOS/tagProcessing/tagFunctions.py", "metaknowledge/recordCollection.py:RecordCollection.networkCoAuthor", "metaknowledge/recordCollection.py:RecordCollection.networkCoCitation", "metaknowledge/mkCollection.py:CollectionWithIDs.networkOneMode", "metaknowledge/mkCollection.py:CollectionWithIDs.rankedSeries"]}
{"id": "C105", "title": "A record can be gone through like a dict", "statement": "Iterating a record gives the tags of its fields, each once, in the order of the file, and len is their number. items() and values() give with each tag what reading the tag gives, in the same order, and with raw = True the lines themselves. Several iterations of one record and reads of it can be interleaved in any way without disturbing each other. A name is in the record exactly when reading it does not raise KeyError. str shows the title, or the id when there is none, and repr the id.", "quantifier": "all records of all kinds, all interleavings of any number of iterations with reads, all earlier reads", "why_tests_cant": "Each read changes what the record remembers, so the result of an iteration could depend on what else is read between its steps; tests iterate once over a fresh record.", "anchors": ["metaknowledge/mkRecord.py:Record.__iter__", "metaknowledge/mkRecord.py:Record.__len__", "metaknowledge/mkRecord.py:Record.__str__", "metaknowledge/mkRecord.py:Record.__repr__", "metaknowledge/mkRecord.py:ExtendedRecord.values", "metaknowledge/mkRecord.py:ExtendedRecord.items", "metaknowledge/mkRecord.py:ExtendedRecord.__contains__"]}
{"id": "C106", "title": "Updating the journal abbreviations: pages, databases, working directory", "statement": "updatej9DB stores the database beside the source, wherever the caller is working, and changes no other file; with saveRawHTML = True every page is saved as the server gave it in a directory named after the day inside j9Raws, and nothing else is touched; in either case the process stays in its working directory, so that the names it uses afterwards mean the same files. A download that fails leaves the pages saved earlier and the database as they were and raises one of the package's exceptions. getj9dict for a name whose database is missing or empty makes that database and returns its contents.", "quantifier": "all paths of the package, working directories, file systems, dates, database names and contents, all sequences of answers of the server, failing at any page", "why_tests_cant": "the failure can come at any of the 27 pages of either round of requests, in any file system and working directory, and tests do not contact a server that fails on demand", "anchors": ["metaknowledge/journalAbbreviations/backend.py:j9urlGenerator", "metaknowledge/journalAbbreviations/backend.py:_j9SaveCurrent", "metaknowledge/journalAbbreviations/backend.py:_getCurrentj9Dict", "metaknowledge/journalAbbreviations/backend.py:updatej9DB", "metaknowledge/journalAbbreviations/backend.py:getj9dict"]}
{"id": "C107", "title": "The table of first names over sessions and failed downloads", "statement": "The gender given for a name is what the published table says for its first name (the last row that has it, letter case aside), Unknown for names that are not in it or cannot be taken apart, in every session: a download that fails is made again when it is next needed and leaves no trace in later answers. Asking for the British table gives the British table and does not change what the American one answers.", "quantifier": "all tables of names, all names, all histories of questions, loads and sessions, downloads failing at any of them in any way and after any number of characters", "why_tests_cant": "the file is downloaded at most once and then trusted for ever, so what matters is the whole history of sessions and where a download broke off; tests run once with a network", "anchors": ["metaknowledge/genders/nameGender.py:downloadData", "metaknowledge/genders/nameGender.py:getMapping", "metaknowledge/genders/nameGender.py:nameStringGender"]}
{"id": "C108", "title": "The networks and tables made from a Medline file are those its text describes", "statement": "For a file in the Medline format, the collection made from it has one record for each paper, and every tag that has one entry for each value gives, under its tag, its long name and its common name, the values that stand in the file. The co-author network joins two names as often as a paper lists both, with short names (AU) or full names (FAU) as asked; the one-mode network of a tag joins its values as often as a paper has both and counts the papers of each; rankedSeries gives every value once with the number of times the papers have it, and for 'year' every year with the number of papers of that year.", "quantifier": "all files of Medline papers with different numbers, all tags of lists under all their names, all orders in which the set of records is gone through, all histories of reading the records before, both settings of the options", "why_tests_cant": "It is a statement about text in and networks out, through parsing, attaching affiliations, name tables, caching and counting; tests try a file or two.", "anchors": ["metaknowledge/medline/medlineHandlers.py:medlineParser", "metaknowledge/medline/recordMedline.py:MedlineRecord", "metaknowledge/medline/tagProcessing/specialFunctions.py:year", "metaknowledge/mkRecord.py:ExtendedRecord.__getitem__", "metaknowledge/recordCollection.py:networkCoAuthor", "metaknowledge/mkCollection.py:rankedSeries", "metaknowledge/mkCollection.py:networkOneMode"]}
{"id": "C109", "title": "A Scopus file gives the networks and tables of what stands in it", "statement": "RecordCollection of a file exported from Scopus, followed by a network or a table, gives what one counts in the file by hand. The collection has one record for each line, and under the name of a column or a common name ('authorsFull', 'year', 'keywords', 'citations', ...) it gives the items of the cell, whatever was read before. The co-author network joins two names as often as papers list both and has just the listed names as nodes; rankedSeries of a column gives each item once with the number of times it occurs, in order; rankedSeries('year') counts the papers of each year and leaves out papers without one; networkOneMode counts pairs of items and items; networkCoCitation joins two references as often as papers cite both.", "quantifier": "every list of papers with different numbers, every content of their cells that Scopus writes (quoted or bare, empty, no line ends; bare ones without commas, quotes doubled), every order in which the set of records is walked, everything read from the records before, all options", "why_tests_cant": "The result goes through detection, the splitting of lines into cells, the processing of cells, the common names and the counting; tests check each on one sample file. Only a proof covers every file and every earlier reading.", "anchors": ["metaknowledge/scopus/scopusHandlers.py:isScopusFile", "metaknowledge/scopus/scopusHandlers.py:scopusParser", "metaknowledge/scopus/recordScopus.py:ScopusRecord", "metaknowledge/scopus/recordScopus.py:scopusRecordParser", "metaknowledge/scopus/tagProcessing/tagFunctions.py:scopusTagToFunction", "metaknowledge/recordCollection.py:RecordCollection.__init__", "metaknowledge/recordCollection.py:networkCoAuthor", "metaknowledge/recordCollection.py:networkCoCitation", "metaknowledge/mkCollection.py:CollectionWithIDs.rankedSeries", "metaknowledge/mkCollection.py:networkOneMode"]}
{"id": "C110", "title": "Saving a Scopus collection and reading it again does not change its networks", "statement": "When a collection made from a Scopus file is saved with writeFile and the saved file is read, the networks and tables made from it are the same as before: the file holds the same papers with the same cells, and a paper that had nothing in a column still has nothing in it.", "quantifier": "every file of Scopus papers, every order in which the records are written and walked, every column of lists, all options", "why_tests_cant": "Whether a saved file means the same depends on every cell of every paper, in particular on the empty ones; a test compares one file.", "anchors": ["metaknowledge/recordCollection.py:RecordCollection.writeFile", "metaknowledge/scopus/recordScopus.py:ScopusRecord.writeRecord", "metaknowledge/scopus/recordScopus.py:scopusRecordParser", "metaknowledge/mkCollection.py:CollectionWithIDs.rankedSeries", "metaknowledge/mkCollection.py:networkOneMode", "metaknowledge/recordCollection.py:networkCoAuthor"]}
{"id": "C111", "title": "A ProQuest file gives the networks and tables of what stands in it", "statement": "For every well-formed ProQuest text file, the collection made from it holds one record for each document of the file, named by its document number. Each record gives back, under the label of the file and under the common names, the line of a label of one line, the listed entries of a label of lists and the lines of any other label, whatever was read from the record before. The ranking of the values of a label counts exactly how often each value stands in the file. The one-mode network of a label joins two values as often as the documents list them together, and the two-mode network of two labels joins their values as often as the documents hold them together. The co-author network has the authors as its nodes and joins two authors as often as they signed together.", "quantifier": "every text file with the layout of a ProQuest export, every front matter, index and list of documents in it, every order of the collection's set, every history of reads, every label with a simple reading and every option of the network functions", "why_tests_cant": "A test reads one sample file and counts nodes. That the numbers of a network are the numbers of the file for every file depends on the parser, the record's tag processing, the naming of fields and the network code all at once.", "anchors": ["metaknowledge/proquest/proQuestHandlers.py:proQuestParser", "metaknowledge/proquest/recordProQuest.py:ProQuestRecord", "metaknowledge/proquest/tagProcessing/tagFunctions.py:proQuestSubject", "metaknowledge/recordCollection.py:RecordCollection.networkCoAuthor", "metaknowledge/mkCollection.py:CollectionWithIDs.networkOneMode", "metaknowledge/mkCollection.py:CollectionWithIDs.networkTwoMode", "metaknowledge/mkCollection.py:CollectionWithIDs.rankedSeries"]}
{"id": "C112", "title": "A network can be made part by part", "statement": "When a collection is cut into parts, by chunk or in any other way without overlap, the network of each part is made and the networks are merged with mergeGraphs one after the other, the result is the network of the whole collection: the same nodes with the same counts and other attributes, the same edges with the same weights. This is meant for networkMultiLevel, networkOneMode, networkTwoMode, networkMultiMode, networkCoAuthor, networkCoInvestigator, networkCoCitation, networkCitation and networkBibCoupling, with all their options.", "quantifier": "every collection, every way of cutting it into any number of parts, every order in which the parts and the whole are gone through, all options of the network functions", "why_tests_cant": "It relates a whole family of runs of the network functions and mergeGraphs on unboundedly many parts; a test fixes one collection and one cut.", "anchors": ["metaknowledge/graphHelpers.py:mergeGraphs", "metaknowledge/mkCollection.py:Collection.chunk", "metaknowledge/mkCollection.py:CollectionWithIDs.networkMultiLevel", "metaknowledge/mkCollection.py:CollectionWithIDs.networkTwoMode", "metaknowledge/mkCollection.py:CollectionWithIDs.networkMultiMode", "metaknowledge/recordCollection.py:RecordCollection.networkCoAuthor", "metaknowledge/recordCollection.py:RecordCollection.networkCoCitation", "metaknowledge/recordCollection.py:RecordCollection.networkCitation", "metaknowledge/recordCollection.py:RecordCollection.networkBibCoupling", "metaknowledge/grantCollection.py:GrantCollection.networkCoInvestigator"]}
{"id": "C113", "title": "Saving a Web of Science collection, any number of times, keeps its networks and tables", "statement": "When a Web of Science file of well formed papers is read, written with writeFile, read again, and so on any number of times, every step succeeds; and the network of co-authors, the network of any tag, the network of cited works and the ranked table of any tag made from the last file have the same nodes, edges, weights and counts as those made from the first.", "quantifier": "all files of different well formed papers, with or without a byte order mark; all numbers of savings; all orders in which each collection is gone through; all tags; all histories of reads of the records", "why_tests_cant": "The history has any length, the orders of the sets differ between runs, and a value read before can be served from a cache; a test fixes one file, one save and one order.", "anchors": ["metaknowledge/recordCollection.py:RecordCollection.writeFile", "metaknowledge/WOS/recordWOS.py:WOSRecord.writeRecord", "metaknowledge/WOS/wosHandlers.py:wosParser", "metaknowledge/recordCollection.py:RecordCollection.networkCoAuthor", "metaknowledge/mkCollection.py:CollectionWithIDs.networkOneMode", "metaknowledge/mkCollection.py:CollectionWithIDs.rankedSeries", "metaknowledge/recordCollection.py:RecordCollection.networkCoCitation"]}
{"id": "C114", "title": "Saving a Medline collection, any number of times, keeps its networks, tables and addresses", "statement": "When a Medline file of well formed papers is read, written with writeFile, read again, and so on any number of times, every step succeeds; the network of co-authors, the network and the ranked table of any tag of lists, and the table of years made from the last file are the same as those made from the first; and the addresses of the authors are still those of the first file.", "quantifier": "all files of different well formed papers; all numbers of savings; all orders in which each collection is gone through; all tags of lists under any of their names; all histories of reads of the records", "why_tests_cant": "The history has any length and each step regroups the entries of each paper; a test fixes one file, one save and one order, and what goes wrong only doubles with each step.", "anchors": ["metaknowledge/recordCollection.py:RecordCollection.writeFile", "metaknowledge/medline/recordMedline.py:MedlineRecord.writeRecord", "metaknowledge/medline/recordMedline.py:medlineRecordParser", "metaknowledge/medline/medlineHandlers.py:medlineParser", "metaknowledge/recordCollection.py:RecordCollection.networkCoAuthor", "metaknowledge/mkCollection.py:CollectionWithIDs.networkOneMode", "metaknowledge/mkCollection.py:CollectionWithIDs.rankedSeries"]}
{"id": "C115", "title": "Saving a Scopus collection again changes nothing after the first time", "statement": "A Scopus file that is read and saved, once or any number of times, holds the same papers. Two files saved from it, however often each was saved, give the same records, and these give the same under every tag; so their networks and rankings are the same. Compared with the file it started from, the networks have the same edges, and the same nodes, except that each paper that had nothing in the column counts once for a node without a name, once however often it was saved.", "quantifier": "every file of Scopus papers, every number of savings, every order in which the records are written and walked each time, every tag, all options, whatever was read of the records", "why_tests_cant": "The number of savings and the orders of the sets are unbounded; a test saves once in one order.", "anchors": ["metaknowledge/recordCollection.py:RecordCollection.writeFile", "metaknowledge/recordCollection.py:RecordCollection.__init__", "metaknowledge/scopus/recordScopus.py:ScopusRecord.writeRecord", "metaknowledge/scopus/scopusHandlers.py:scopusParser", "metaknowledge/mkCollection.py:CollectionWithIDs.networkOneMode", "metaknowledge/mkCollection.py:CollectionWithIDs.rankedSeries"]}
{"id": "C116", "title": "The documentation generator documents everything public, in the order of the source", "statement": "metaknowledge-DocsGen ends exactly if the package and its modules have docstrings, every function to be shown has arguments that can be shown and no docstring line is a lone '>'. It then writes one page for the package, one for the functions, one for every public class that is no exception and one for every module. Every public function, every method of a public class that is its own or that the class lists as documented, and every public function of a module has exactly one row in the table and one entry on its page, with its name, its public arguments and its docstring, or a line saying there is none. Entries stand in the order of the source. With -single everything is in one file and links stay inside it.", "quantifier": "every package, as inspect describes it: all functions, classes, exceptions, modules, docstrings, arguments and places", "why_tests_cant": "The set of members, docstrings and line numbers is unbounded; a test runs the script on one package.", "anchors": ["metaknowledge/bin/metaknowledgeDocsGen.py:main", "metaknowledge/bin/metaknowledgeDocsGen.py:writeMainBody", "metaknowledge/bin/metaknowledgeDocsGen.py:writeModuleFile", "metaknowledge/bin/metaknowledgeDocsGen.py:proccessClass", "metaknowledge/bin/metaknowledgeDocsGen.py:makeTable", "metaknowledge/bin/metaknowledgeDocsGen.py:writeFunc", "metaknowledge/bin/metaknowledgeDocsGen.py:getLineNumber"]}
{"id": "C117", "title": "The documentation shows docstrings, links and arguments as they are meant", "statement": "A docstring is shown line by line: a heading is lowered to the level of the entry, a quoted line loses its mark, a twice quoted line is quoted once, any other line is kept. A link [text](#owner.name) leads to the anchor of the name, on the page of the site or in the single file. Of the arguments of a function all are shown except self and those that begin with an underscore.", "quantifier": "every docstring, every number of lines and links up to 99 on a line, every level, every list of arguments", "why_tests_cant": "Texts are unbounded and the pattern for links is greedy; a test sees a few lines.", "anchors": ["metaknowledge/bin/metaknowledgeDocsGen.py:cleanedDoc", "metaknowledge/bin/metaknowledgeDocsGen.py:makeUrls", "metaknowledge/bin/metaknowledgeDocsGen.py:makeSingleFileUrls", "metaknowledge/bin/metaknowledgeDocsGen.py:cleanargs"]}
{"id": "C118", "title": "From a Web of Science file: who cites whom", "statement": "For every Web of Science file of papers, each with a first author, a year and a journal (or a title), RecordCollection(file).networkCitation() has each paper that cites something under one label, made of first author, year and journal, and an edge from it to what each of its reference lines stands for, with the number of those lines as weight, and nothing else. A reference line with the same first author, year and journal as a paper of the file stands for that paper, whatever volume, page and DOI it names, full stops and case apart. networkBibCoupling() joins two papers with the number of different works that both cite, whatever the order of visiting; with coreOnly, networkCoCitation() and networkCitation() keep exactly the works of the file.", "quantifier": "all files of papers (any number of papers, authors and reference lines), all orders in which the set of records is visited, all histories of reading fields before, all options of the networks with full citations", "why_tests_cant": "It joins the parser of files, the parsing of fields, the writing of a record as a citation, the reading of reference lines by a regular expression and the networks: a test shows it for the files at hand.", "anchors": ["metaknowledge/recordCollection.py:networkCitation", "metaknowledge/recordCollection.py:networkBibCoupling", "metaknowledge/recordCollection.py:networkCoCitation", "metaknowledge/mkRecord.py:createCitation", "metaknowledge/citation.py:Citation"]}
{"id": "C119", "title": "From a Scopus file: who cites whom", "statement": "For every Scopus file of papers, each with a first author, a year and a journal, RecordCollection(file).networkCitation() has each paper that cites something under one label, made of first author, year and journal, and an edge from it to what each of its References stands for, with the number of those entries as weight, and nothing else. A reference to a paper of the file, as Scopus writes references, stands for that paper, whatever title, volume and page it names. networkBibCoupling() joins two papers with the number of different works that both cite; with coreOnly, networkCoCitation() keeps exactly the works of the file.", "quantifier": "all Scopus files of papers (any number of papers, authors and references), all orders in which the set of records is visited, all histories of reading fields before, all options of the networks with full citations", "why_tests_cant": "It joins the reading of csv lines, the parsing of columns, the writing of a record as a citation, the reading of references by a regular expression and the networks; that a reference to a paper of the file is never recognised shows only when a file holds a paper and one that cites it.", "anchors": ["metaknowledge/recordCollection.py:networkCitation", "metaknowledge/recordCollection.py:networkBibCoupling", "metaknowledge/recordCollection.py:networkCoCitation", "metaknowledge/scopus/recordScopus.py:ScopusRecord.createCitation", "metaknowledge/citation.py:Citation"]}
{"id": "C120", "title": "From Web of Science files: how often papers are cited, by whom, and how much of one file another uses", "statement": "Take a well-formed Web of Science file whose papers have the author, year and journal or title a reference is made of. RecordCollection(file).localCitesOf(number of a paper) gives exactly the papers with a reference line that stands for it, each once. localCiteStats() counts each cited work as often as reference lines of the file stand for it, lists no work that none stands for, and its counts add up to the number of reference lines; by year it counts the reference lines giving that year. diffusionCount(RecordCollection(source), RecordCollection(target)) has exactly the papers of the source file, each with the number of reference lines of the target file that stand for it, under its first author or under any of its authors as chosen, provided no two papers of the source can be cited in the same way.", "quantifier": "every well-formed file or pair of files, any number of papers and references, any order of the records, whatever was read of them before, any hash of citations", "why_tests_cant": "tests count citations in one downloaded sample where the right numbers are whatever the program gave; that every line of every file is counted for the right paper needs a proof over all files", "anchors": ["metaknowledge/recordCollection.py:localCitesOf", "metaknowledge/recordCollection.py:localCiteStats", "metaknowledge/diffusion.py:diffusionCount", "metaknowledge/mkRecord.py:createCitation", "metaknowledge/citation.py:Citation"]}
{"id": "C121", "title": "Collections combined from several files and cut by years or type behave as the file of just those papers", "statement": "A user loads Web of Science files that may overlap, combines the collections with |, &, - and ^, cuts them with yearSplit and dropNonJournals, nested in any way. The result holds each paper once that the expression describes, and no other, and it is a collection that loading one file of just those papers could have given, so that every network and table made from it is that of this file. In particular the co-author network joins two names as often as a chosen paper lists both, and when a span of years is cut in two, its weights and the number of papers are the sums of those of the two parts. yearSplit with dropMissingYears = False raises TypeError when a paper of the collection has no year.", "quantifier": "every expression of any depth over any number of well-formed files in which the same accession number means the same paper, any orders of the sets, anything read before", "why_tests_cant": "a test tries a few combinations of one sample file; the claim is for every nesting of the operations and every overlap of the files", "anchors": ["metaknowledge/mkCollection.py:Collection.__or__", "metaknowledge/mkCollection.py:Collection.__xor__", "metaknowledge/recordCollection.py:yearSplit", "metaknowledge/recordCollection.py:dropNonJournals", "metaknowledge/recordCollection.py:networkCoAuthor"]}
{"id": "C122", "title": "From a Web of Science file: two-mode networks, time series, co-occurrence counts and RPYS tables", "statement": "Reading a Web of Science file with RecordCollection and then calling networkTwoMode, timeSeries, cooccurrenceCounts or rpys gives what a count over the papers printed in the file gives. networkTwoMode joins a value of one tag and a value of the other as often as a paper has both (when no paper repeats a value: the number of papers with both), and its nodes are exactly the values. timeSeries lists each value once for each year in which a paper has it, by year, in pandas mode with the number of times. cooccurrenceCounts has as keys the values of the first tag and under them how often each value of the second goes with them. rpys has for each year between the bounds the number of references to works of that year in papers at least two years younger or without a year, its deviation from the median of the five years around it and its rank.", "quantifier": "all files of papers, all iteration orders of the collection, all earlier accesses to the records, all list tags under short or long name, all options and year bounds", "why_tests_cant": "The claim spans the file parser, tag processing, citation parsing and the counting functions, for every file and every iteration order of a set; a test fixes one file and one hash seed.", "anchors": ["metaknowledge/mkCollection.py:networkTwoMode", "metaknowledge/mkCollection.py:timeSeries", "metaknowledge/mkCollection.py:cooccurrenceCounts", "metaknowledge/recordCollection.py:rpys", "metaknowledge/WOS/wosHandlers.py:wosParser"]}
{"id": "C123", "title": "A reference as Scopus writes it is read as its first author, year and journal", "statement": "Citation(s, scopusMode = True) of a reference in the form in which Scopus exports it (Family, I., other authors and title (year) Journal, volume (issue), pp. pages) has the first author, the year and the journal of the reference, its volume and pages, is not bad and keeps the string; two such references are equal exactly if first author, year and journal agree up to case.", "quantifier": "all references of that form: all names, titles, years of two to five digits, journals without a comma, and all that may follow", "why_tests_cant": "The claim is about every string that a backtracking regular expression with optional groups can match in several ways; a test tries a few references.", "anchors": ["metaknowledge/citation.py:Citation.__init__", "metaknowledge/citation.py:scopusCiteRegex"]}
{"id": "C124", "title": "From Medline, Scopus and ProQuest files: two-mode networks, time series, co-occurrence counts and RPYS tables", "statement": "For a collection made from a Medline or a Scopus file, the two-mode network of two tags joins a value of the first to a value of the second as often as papers have both and has the values as nodes; co-occurrence counts say for each value of the key tag how often each value of the other stands beside it (also for ProQuest files); a time series lists each value once for each year in which a paper has it, ordered by year, in pandas form with the number of times. The RPYS table of a Scopus file has each year of the range exactly once with the number of references to works of that year in papers two years younger or without a year, the distance from the median of five years and a rank that follows it; references whose title has a parenthesis are not counted.", "quantifier": "All files of papers in the three formats, all tags that list things and all their names, all options, all orders in which sets are gone through, anything read of the records before.", "why_tests_cant": "Files, tags, values and years are unbounded; a test has one file of each kind and looks at a few numbers of the tables.", "anchors": ["metaknowledge/mkCollection.py:networkTwoMode", "metaknowledge/mkCollection.py:timeSeries", "metaknowledge/mkCollection.py:cooccurrenceCounts", "metaknowledge/recordCollection.py:rpys", "metaknowledge/medline/recordMedline.py", "metaknowledge/scopus/recordScopus.py", "metaknowledge/proquest/recordProQuest.py"]}
{"id": "C125", "title": "From a Web of Science file: csv files and the words of forBurst", "statement": "For a Web of Science file of papers, RecordCollection(file).writeCSV(onlyTheseTags = ...), with the columns given by tags or long names, writes a file that, read back with the same delimiter and quote, has the chosen columns as first row and then one row for each paper: titles and running text joined over their lines, names and references with the list delimiter between them, lists recovered from lines broken anyhow, the first line of identifiers and types, the year as written, nothing where the tag is missing, and the number of authors. With splitByTag of names or a list one such text is written for each item some paper has, and no other, with the row of a paper as often as the paper has the item. RecordCollection(file).forBurst(tag) has a year together with a word as often as the papers of that year have the word in their text, lowered, cleaned and stemmed as the options say, and nothing for papers without year or tag. It does not matter in which order the set is gone through or what was read from the records before.", "quantifier": "all files of papers, all orders of the set, all histories of reads, all choices of columns, delimiters and quotes, all options of forBurst without a drop list", "why_tests_cant": "Reader, access to fields, processing of tags, names of tags and the csv writer or the tokenizer act together, and a test only sees some files; the set is gone through in an order no test controls.", "anchors": ["metaknowledge/recordCollection.py: RecordCollection.writeCSV, forBurst", "metaknowledge/mkRecord.py: ExtendedRecord.__getitem__", "metaknowledge/WOS/recordWOS.py: recordParser", "metaknowledge/WOS/tagProcessing/funcDicts.py: fullToTagDict"]}
{"id": "C126", "title": "From a Web of Science file to a network, thresholded, saved and read again", "statement": "A Web of Science file is read, the network of co-authors (or a two-mode network of two tags) is made, dropEdges is called with bounds on the weight, the network is saved with writeGraph and read with readGraph. The network read has all names that papers list (or all values of the two tags), also those left without edges, and joins two of them exactly when the number of times papers have both is positive and within the bounds (and, with dropSelfLoops, the two differ); this number, written in decimal as a text, is the only attribute of the edge. When no paper lists a name twice, the number is the number of papers that list both. Since the weights are texts after reading, dropEdges with any bound on the network read raises a TypeError as soon as there is an edge to look at.", "quantifier": "all files of different papers as exports have them, all orders of sets, whatever was read of the records before, short or full names, counts and types or not, all bounds, ignoreUnweighted, dropSelfLoops, directed or not", "why_tests_cant": "the papers, names, bounds and orders of sets are unbounded; the result depends on the whole chain of steps", "anchors": ["metaknowledge/graphHelpers.py: dropEdges, writeGraph, readGraph, writeEdgeList, writeNodeAttributeFile", "metaknowledge/recordCollection.py: networkCoAuthor", "metaknowledge/mkCollection.py: networkTwoMode"]}
{"id": "C127", "title": "From a Web of Science file to the tables of makeDict and forNLP", "statement": "makeDict on a collection read from a Web of Science file, with chosen tags given as tags or long names, has one column for each, and without a choice one for every tag that some paper of the file has, under its tag or its long name as asked, and as asked the number of authors and the counts of genders; every column has one entry for each paper of the file, in one order for all columns: the value the paper has under the tag (text, list, year as a number), or None. forNLP has one row for each paper: accession number, year as a number or the empty text, title, the index keywords in upper case with bars between them, the words of the abstract with single spaces between them, lowered, cleaned and stemmed as the options say, and the extra columns, lists with bars between the items and the empty text for nothing. With removeCopyright the statement is the copyright statement of the abstract, even when the file breaks a line inside it, and abstract and statement together are the whole abstract up to white space at the end.", "quantifier": "all files of different papers as exports have them, all orders of sets, whatever was read of the records before, all choices of tags with long names, all options of cleaning, all extra columns", "why_tests_cant": "the papers, texts, chosen columns and orders are unbounded; the tables depend on the whole chain of reading, processing and cleaning", "anchors": ["metaknowledge/recordCollection.py: RecordCollection.makeDict, RecordCollection.forNLP, findCopyright", "metaknowledge/WOS/recordWOS.py: WOSRecord, recordParser", "metaknowledge/mkRecord.py: subDict"]}
{"id": "C128", "title": "From a Web of Science file to a bib file", "statement": "writeBib on a collection read from a Web of Science file writes, after its first lines, one entry for each paper of the file, each after an empty line: the key, the full names of the authors, and every field of the paper in the order of the file, with its tag and what its lines mean (running text joined, lists with ' and ' between the items, months and years as numbers, tags that are not known as they are), in quotes, or in braces when there are quotes in it; in the style of Web of Science in double braces with the members of lists on lines of their own. Without nice keys the keys are the accession numbers, so no two entries have the same one; nice keys consist of the first author, year, month and the longest words of the title, with the accession number when they are short.", "quantifier": "all files of different papers as exports have them, with any tags, all orders of sets, whatever was read of the records before, both styles, nice keys or not, all limits of the length that no value exceeds", "why_tests_cant": "papers, fields, values and orders are unbounded; the entry depends on the meaning of every tag", "anchors": ["metaknowledge/recordCollection.py: RecordCollection.writeBib", "metaknowledge/mkRecord.py: ExtendedRecord.bibString, _bibFormatter, ExtendedRecord.items", "metaknowledge/WOS/tagProcessing/tagFunctions.py"]}
{"id": "C129", "title": "From a Medline file: the table of makeDict", "statement": "For every list of Medline papers written to a file, RecordCollection(file).makeDict with chosen names gives one column for each name, with one entry for each paper in an order common to all columns: what the paper has under that name - the list of its values, the first value for fields of one value, or None - and as asked the number of authors listed. Names can be tags, their long names or the names common to all records, and with longNames the columns carry long names.", "quantifier": "every list of papers, every values under every tag, every choice of names, every order of the set of records, every history of earlier reads of the records", "why_tests_cant": "The claim ranges over all files and all choices of columns; the test suite makes tables of Web of Science records only.", "anchors": ["metaknowledge/recordCollection.py:RecordCollection.makeDict", "metaknowledge/WOS/tagProcessing/funcDicts.py:fullToTagDict", "metaknowledge/medline/recordMedline.py:medlineRecordParser", "metaknowledge/medline/tagProcessing/tagFunctions.py"]}
{"id": "C130", "title": "From a Scopus file: the table of forNLP", "statement": "For every list of Scopus papers written to a file, RecordCollection(file).forNLP gives one row for each paper, in an order common to all columns: its number, its year as a number or the empty text, its title, its keywords with bars between them, and its abstract processed as the options say.", "quantifier": "every list of papers, every content of their cells, every option of forNLP, every order of the set of records, every history of earlier reads of the records", "why_tests_cant": "The claim ranges over all files and options; the test suite makes the table from Web of Science records only.", "anchors": ["metaknowledge/recordCollection.py:RecordCollection.forNLP", "metaknowledge/scopus/recordScopus.py:scopusRecordParser", "metaknowledge/scopus/tagProcessing/specialFunctions.py", "metaknowledge/mkRecord.py:ExtendedRecord.get"]}
{"id": "C131", "title": "makeDict of a Scopus file", "statement": "For a Scopus file of papers, RecordCollection(file).makeDict() without a choice of tags gives one column for every column of the file in which some paper has something, and the number of authors and the counts of genders as asked. Each column has one entry per paper of the file, in an order that is the same for all columns: the list of items, the text, the number, the references or the grants that the cell of the paper means, and nothing where the cell is empty. A column that is asked for by its name, or by a name common to all records, gives the same values; the code does not do so for DOI, ISBN, ISSN and the common names, which it takes for long names of Web of Science tags.", "quantifier": "all well-formed Scopus files of any number of papers, all orders of the collection, all earlier accesses to the records, all choices of numAuthors and genderCounts", "why_tests_cant": "the columns depend on which cells are used anywhere in the file and their order on the order of a set; a test looks at one file", "anchors": ["metaknowledge/recordCollection.py:makeDict", "metaknowledge/scopus/recordScopus.py:scopusRecordParser", "metaknowledge/scopus/recordScopus.py:ScopusRecord", "metaknowledge/WOS/tagProcessing/funcDicts.py:fullToTagDict", "metaknowledge/scopus/scopusHandlers.py:scopusParser", "metaknowledge/scopus/tagProcessing/tagFunctions.py"]}
