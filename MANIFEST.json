{
 "claims": [
  {
   "property": "C01",
   "status": "proved",
   "theorems": [
    "Verif.Props.C01_binary_members",
    "Verif.Props.C01_inplace_members",
    "Verif.Props.C01_declines_iff",
    "Verif.Props.C01_eq_iff",
    "Verif.Props.C01_hash_of_eq",
    "Verif.Props.C01_names",
    "Verif.Props.C01_le_ge"
   ],
   "note": "Binary and in-place operators are the set operations on the members, for any pair of collections; also shows that <= and >= compare sizes, not inclusion."
  },
  {
   "property": "C02",
   "status": "proved",
   "theorems": [
    "Verif.Props.C02_refines_set",
    "Verif.Props.C02_collected_types",
    "Verif.Props.C02_types_cover",
    "Verif.Props.C02_peek"
   ],
   "note": "Every finite history of mutations refines a mathematical set."
  },
  {
   "property": "C03",
   "status": "partial",
   "theorems": [
    "Verif.Props.C03_clear",
    "Verif.Props.C03_bad_iff",
    "Verif.Props.C03_inplace_errors",
    "Verif.Props.C03_binary_loses_left_errors",
    "Verif.Props.C03_binary_errors_partial"
   ],
   "note": "The code disagrees: a binary operator drops the errors of its left operand (C03_binary_loses_left_errors). The bad flag and the in-place operators are fully characterised."
  },
  {
   "property": "C04",
   "status": "proved",
   "theorems": [
    "Verif.Props.C04_chunk_partition",
    "Verif.Props.C04_chunk_number"
   ],
   "note": "Full characterisation of chunk()."
  },
  {
   "property": "C05",
   "status": "proved",
   "theorems": [
    "Verif.Props.C05_split_partition"
   ],
   "note": "Full characterisation of split(), for every schedule of set.pop."
  },
  {
   "property": "C06",
   "status": "proved",
   "theorems": [
    "Verif.Props.C06_containsID_iff",
    "Verif.Props.C06_getID",
    "Verif.Props.C06_remove_present",
    "Verif.Props.C06_remove_absent",
    "Verif.Props.C06_removed_gone"
   ],
   "note": "Lookup, removal and discarding by id."
  },
  {
   "property": "C07",
   "status": "proved",
   "theorems": [
    "Verif.Props.C07_bad_entries",
    "Verif.Props.C07_drop_idempotent",
    "Verif.Props.C07_tags"
   ],
   "note": "badEntries, dropBadEntries and tags."
  },
  {
   "property": "C08",
   "status": "partial",
   "theorems": [
    "Verif.Props.C08_served_iff_fresh",
    "Verif.Props.C08_damaged_not_served",
    "Verif.Props.C08_history_partial",
    "Verif.Props.C08_sessions_partial",
    "Verif.Props.C08_transparent_partial",
    "Verif.Props.C08_race",
    "Verif.Props.C08_grant_second_load_raises",
    "Verif.Props.C08_crash_while_writing",
    "Verif.Props.C08_pickle_error_reparses"
   ],
   "note": "Served iff nothing read has changed, and over any history of loads, file changes, damages and removals of the cache every load gives the result of reading the present files. The code disagrees for grant collections whose cache has the extension asked for (second load raises), after a crash while writing (EOFError not caught) and when a file is changed while the directory is loaded (C08_race); all are proved."
  },
  {
   "property": "C09",
   "status": "proved",
   "theorems": [
    "Verif.Props.C09_error_iff",
    "Verif.Props.C09_counts",
    "Verif.Props.C09_plain",
    "Verif.Props.C09_ranks",
    "Verif.Props.C09_pandas"
   ],
   "note": "Counts, error conditions, the plain ordering and the dense ranks are characterised for all inputs; C09_pandas shows that the pandas form is always descending, whatever greatestFirst says."
  },
  {
   "property": "C10",
   "status": "proved",
   "theorems": [
    "Verif.Props.C10_tag",
    "Verif.Props.C10_total",
    "Verif.Props.C10_records"
   ],
   "note": "Year by value counts and totals for all collections."
  },
  {
   "property": "C11",
   "status": "proved",
   "theorems": [
    "Verif.Props.C11_cooccurrence"
   ],
   "note": "Exact co-occurrence counts; missing countedTags is not reported because the code builds the error without raising it (noted in DESIGN.md)."
  },
  {
   "property": "C12",
   "status": "proved",
   "theorems": [
    "Verif.Props.C12_multi_level",
    "Verif.Props.C12_order_independent",
    "Verif.Props.C12_one_mode"
   ],
   "note": "Edge weights, node counts and node set exactly characterised; independence of the visiting order proved. The options edgeAttribute and nodeAttribute are C89 and C90."
  },
  {
   "property": "C13",
   "status": "partial",
   "theorems": [
    "Verif.Props.NetworkTypes.C13_types_exact",
    "Verif.Props.NetworkTypes.C13_types_wrong",
    "Verif.Props.NetworkTypes.C13_left_out",
    "Verif.Props.C13_edges_nodes",
    "Verif.Props.C13_counts_exact",
    "Verif.Props.C13_counts_partial",
    "Verif.Props.C13_types",
    "Verif.Props.C13_counts_wrong"
   ],
   "note": "Edges and nodes are exact. Counts are exact up to the code's missing count (C13_counts_exact, C13_counts_wrong); C13_counts_partial is the claim under the hypothesis that avoids it. Types are characterised exactly: one tag only, also for a node that both tags give (C13_types_wrong)."
  },
  {
   "property": "C14",
   "status": "partial",
   "theorems": [
    "Verif.Props.NetworkTypes.C14_types_exact",
    "Verif.Props.NetworkTypes.C14_left_out",
    "Verif.Props.C14_edges_nodes",
    "Verif.Props.C14_same_tag_not_joined",
    "Verif.Props.C14_counts_exact_partial",
    "Verif.Props.C14_types",
    "Verif.Props.C14_counts_wrong"
   ],
   "note": "Edges and nodes are exact. Counts lose one when the first record holding the node has one tag only (C14_counts_exact_partial, C14_counts_wrong). Types are characterised exactly: one tag with counting, the tags of all occurrences run together without."
  },
  {
   "property": "C15",
   "status": "partial",
   "theorems": [
    "Verif.Props.C15_edges_nodes",
    "Verif.Props.C15_attributes",
    "Verif.Props.C15_counts_partial",
    "Verif.Props.C15_counts_wrong"
   ],
   "note": "Edges, node set and attributes are exact for every collection. The count attribute is k per record for the k-th listed name (C15_counts_wrong); C15_counts_partial says exactly when it equals the number of papers."
  },
  {
   "property": "C16",
   "status": "proved",
   "theorems": [
    "Verif.Props.C16_cocitation",
    "Verif.Props.C16_order_independent",
    "Verif.Props.C16_attribute_error"
   ],
   "note": "Edge weights, node set, counts and order independence are exact when the kept citations have the attribute used; otherwise the call raises (C16_attribute_error). Which citations are kept is stated by an independent predicate (Enters)."
  },
  {
   "property": "C17",
   "status": "partial",
   "theorems": [
    "Verif.Props.C17_citation_partial",
    "Verif.Props.C17_unweighted_direction_ignored",
    "Verif.Props.C17_weighted_direction_wrong",
    "Verif.Props.C17_unweighted_other_types_raise",
    "Verif.Props.C17_empty_head_joins_citations"
   ],
   "note": "Edges, weights and counts are exact for the option values for which the code honours the direction (C17_citation_partial). For the others the disagreement is proved: direction ignored, wrong or UnboundLocalError; an empty identifying string joins the citations to each other."
  },
  {
   "property": "C18",
   "status": "proved",
   "theorems": [
    "Verif.Props.C18_coupling"
   ],
   "note": "Exact, for every visiting order of the set of cited works."
  },
  {
   "property": "C19",
   "status": "partial",
   "theorems": [
    "Verif.Props.C19_filter_partial",
    "Verif.Props.C19_no_attribute"
   ],
   "note": "Exact for citation objects that have the attribute; those without it pass the filter (C19_no_attribute)."
  },
  {
   "property": "C20",
   "status": "proved",
   "theorems": [
    "Verif.Props.C20_partition",
    "Verif.Props.C20_empty_entry_raises"
   ],
   "note": "Exact partition unless the journal of a citation is listed without names, in which case the call raises; both proved for every list."
  },
  {
   "property": "C21",
   "status": "proved",
   "theorems": [
    "Verif.Props.C21_yearSplit",
    "Verif.Props.C21_partition"
   ],
   "note": "Exact membership of the result for every collection and bounds, and the split by a threshold is a partition."
  },
  {
   "property": "C22",
   "status": "partial",
   "theorems": [
    "Verif.Props.C22_localCiteStats_partial",
    "Verif.Props.C22_raises",
    "Verif.Props.C22_progress_raises",
    "Verif.Props.C22_raises_iff",
    "Verif.Props.C22_pandas"
   ],
   "note": "Exact counts per key when every citation has the attribute; exactly when the call raises, for every collection. Partial: with progress shown (VERBOSE_MODE, the default on a terminal) a single record that is not from the Web of Science makes the call raise (C22_progress_raises, C22_raises_iff), so C22_localCiteStats_partial asks for quiet mode or Web of Science records."
  },
  {
   "property": "C23",
   "status": "partial",
   "theorems": [
    "Verif.Props.C23_citation",
    "Verif.Props.C23_id",
    "Verif.Props.C23_citation_string_ignored",
    "Verif.Props.C23_record_raises",
    "Verif.Props.C23_localCitesOf_partial"
   ],
   "note": "Exact for citations and identifiers. A Record argument raises and a citation string is never parsed (both proved), so the documented claim holds only in part."
  },
  {
   "property": "C24",
   "status": "partial",
   "theorems": [
    "Verif.Props.C24_citeFilter",
    "Verif.Props.C24_citeFilter_partial",
    "Verif.Props.C24_none_field_hides_match",
    "Verif.Props.C24_year_raises"
   ],
   "note": "C24_citeFilter characterises the call exactly; the documented meaning holds when no tested field is None (C24_citeFilter_partial) and fails otherwise (proved)."
  },
  {
   "property": "C25",
   "status": "proved",
   "theorems": [
    "Verif.Props.C25_table",
    "Verif.Props.C25_median_unique",
    "Verif.Props.C25_errors",
    "Verif.Props.C25_recent_citations_lost"
   ],
   "note": "Complete description of the table for every collection, bounds, dropped years and set iteration order, with an independent median (one of the five counts, at most two below, at most two above; proved unique) and rank specification; and of every case in which no table is returned. C25_recent_citations_lost records a disagreement with the documentation."
  },
  {
   "property": "C26",
   "status": "partial",
   "theorems": [
    "Verif.Props.C26_columns_partial",
    "Verif.Props.C26_fields",
    "Verif.Props.C26_clash_misaligned"
   ],
   "note": "Full characterisation of every column and of the errors. C26_columns_partial needs that no selected tag is named as an added column; in that case the code misaligns the columns (C26_clash_misaligned)."
  },
  {
   "property": "C27",
   "status": "partial",
   "theorems": [
    "Verif.Props.C27_copyright_split",
    "Verif.Props.C27_copyright_marker",
    "Verif.Props.C27_copyright_lossless",
    "Verif.Props.C27_copyright_statement",
    "Verif.Props.C27_columns_partial",
    "Verif.Props.C27_duplicates_misaligned",
    "Verif.Props.C27_abstract_characters",
    "Verif.Props.C27_dropList_misses_repeats",
    "Verif.Props.Words.C27_abstract_words",
    "Verif.Props.Words.C27_every_text_has_words",
    "Verif.Props.Words.C27_copyright_option",
    "Verif.Props.Words.C27_dropList",
    "Verif.Props.Words.C27_dropped_all"
   ],
   "note": "Full characterisation of the columns and of findCopyright including its regular expression. C27_columns_partial needs that no extra column is repeated; then the code misaligns the columns (C27_duplicates_misaligned)."
  },
  {
   "property": "C28",
   "status": "proved",
   "theorems": [
    "Verif.Props.C28_history_independent",
    "Verif.Props.C28_either_name",
    "Verif.Props.C28_get",
    "Verif.Props.C28_authors",
    "Verif.Props.C28_medline_class",
    "Verif.Props.C28_scopus_class",
    "Verif.Props.C28_proQuest_class",
    "Verif.Props.C28_wos_class",
    "Verif.Props.C28_clash_depends_on_history",
    "Verif.Props.C28_wos_records",
    "Verif.Props.C28_medline_records"
   ],
   "note": "Any finite sequence of reads leaves every answer unchanged, for WOS, Medline, Scopus and ProQuest classes and with the real name tables of the WOS and Medline ones; a record with fields under both names of a tag is shown to depend on the history (C28_clash_depends_on_history)."
  },
  {
   "property": "C29",
   "status": "proved",
   "theorems": [
    "Verif.Props.WosFiles.C29_round_trip",
    "Verif.Props.WosFiles.C29_string"
   ],
   "note": "An equivalence: a text parses to the given fields exactly when it is those fields as the format writes them followed by an ER line."
  },
  {
   "property": "C30",
   "status": "proved",
   "theorems": [
    "Verif.Props.WosFiles.C30_round_trip",
    "Verif.Props.WosFiles.C30_empty"
   ],
   "note": "For all non-empty lists of well-formed records with distinct accession numbers; an empty collection cannot be written (C30_empty)."
  },
  {
   "property": "C31",
   "status": "partial",
   "theorems": [
    "Verif.Props.WosFiles.C31_total",
    "Verif.Props.WosFiles.C31_start",
    "Verif.Props.WosFiles.C31_prefix",
    "Verif.Props.WosFiles.C31_no_error_partial",
    "Verif.Props.WosFiles.C31_damaged_lost",
    "Verif.Props.WosFiles.C31_repeated_tag",
    "Verif.Props.WosFiles.C31_silent_loss",
    "Verif.Props.WosFiles.C31_truncation",
    "Verif.Props.WosFiles.C31_short_line_splits_record",
    "Verif.Props.WosDamage.C31_short_line",
    "Verif.Props.WosDamage.C31_records_run_together",
    "Verif.Props.WosDamage.C31_no_id"
   ],
   "note": "Totality, preservation of preceding records, error on truncation at every point are proved; and in general: repeated tags, a missing ER line, a short line and a missing accession number each give one bad record, the others unchanged. C31_no_error_partial excludes the case that the reader discards an IndexError; then the code loses the rest of the file without an error (C31_silent_loss). A record with a line whose third character is no space is left out without an error (C31_damaged_lost). A short line makes two records of its record (C31_short_line), and a record whose ER and empty line are missing takes the next one with it (C31_records_run_together)."
  },
  {
   "property": "C32",
   "status": "partial",
   "theorems": [
    "Verif.Props.MedlineFiles.C32_round_trip",
    "Verif.Props.MedlineFiles.C32_reread_partial",
    "Verif.Props.MedlineFiles.C32_author_twice",
    "Verif.Props.MedlineFiles.C32_author_two_lines",
    "Verif.Props.MedlineFiles.C32_no_author"
   ],
   "note": "Round trip for every record whose attached values are listed author by author (a separate spec); re-reading any text gives the same record when the authors are distinct one-line names and every attached value belongs to one of them. It fails otherwise: witnesses for an author listed twice, an author of two lines, attached values before any author."
  },
  {
   "property": "C33",
   "status": "partial",
   "theorems": [
    "Verif.Props.ScopusFiles.C33_line_partial",
    "Verif.Props.ScopusFiles.C33_exact",
    "Verif.Props.ScopusFiles.C33_escaped",
    "Verif.Props.ScopusFiles.C33_inner_quotes",
    "Verif.Props.ScopusFiles.C33_round_trip_partial",
    "Verif.Props.ScopusFiles.C33_start_lost",
    "Verif.Props.ScopusFiles.C33_quote_lost",
    "Verif.Props.ScopusFiles.C33_no_line_end"
   ],
   "note": "C33_exact: the line written for a record is read as the same record exactly if each value is Readable, an explicit condition on the quotes at the starts of the pieces between its commas; C33_escaped and C33_inner_quotes say what it means for values with doubled quotes and with quotes inside. The full claim fails for the other values (C33_start_lost, C33_quote_lost: the record is lost). Absent columns come back as empty ones."
  },
  {
   "property": "C34",
   "status": "proved",
   "theorems": [
    "Verif.Props.ProQuestRecords.C34_reads",
    "Verif.Props.ProQuestRecords.C34_stops",
    "Verif.Props.ProQuestRecords.C34_colon_in_text",
    "Verif.Props.ProQuestRecords.C34_key_error"
   ],
   "note": "Iff: the reader accepts the lines in front of the first separator exactly when they are blank or form a record of the format, and the fields are what the record says; it stops behind the separator. The key of a line holding a colon is a remark in DESIGN.md."
  },
  {
   "property": "C35",
   "status": "partial",
   "theorems": [
    "Verif.Props.Bib.C35_text",
    "Verif.Props.Bib.C35_reading_unique",
    "Verif.Props.Bib.C35_short",
    "Verif.Props.Bib.C35_whole_partial",
    "Verif.Props.Bib.C35_truncates",
    "Verif.Props.Bib.C35_witness",
    "Verif.Props.Bib.C35_witness_empty"
   ],
   "note": "The rendering splits the escaped value into pieces, but drops what is left over after the last full piece: only values no longer than the limit, or whose length is a multiple of it, are kept whole (C35_short, C35_whole_partial); C35_truncates says exactly what is lost, with witnesses."
  },
  {
   "property": "C36",
   "status": "partial",
   "theorems": [
    "Verif.Props.CiteParse.C36_total",
    "Verif.Props.CiteParse.C36_equality",
    "Verif.Props.CiteParse.C36_identity",
    "Verif.Props.CiteParse.C36_determined_partial",
    "Verif.Props.CiteParse.C36_not_determined",
    "Verif.Props.CiteParse.C36_bad_collision",
    "Verif.Props.CiteParse.C36_misc_lost"
   ],
   "note": "Every string parses. Equality is an equivalence and amounts to equality of ids. Good citations have the same id iff author, year and journal agree. That the id is determined by the three holds for bad citations too, except with an empty author or the year 0 (C36_not_determined)."
  },
  {
   "property": "C37",
   "status": "proved",
   "theorems": [
    "Verif.Props.CiteParse.C37_parses_back",
    "Verif.Props.CiteParse.C37_multi",
    "Verif.Props.CiteParse.C37_multi_no_author",
    "Verif.Props.CiteParse.C37_short_author",
    "Verif.Props.CiteParse.C37_no_journal",
    "Verif.Props.CiteParse.C37_no_year",
    "Verif.Props.CiteParse.C37_comma_in_title"
   ],
   "note": "Under the field grammar stated in the theorem; outside it witnesses show what goes wrong."
  },
  {
   "property": "C38",
   "status": "proved",
   "theorems": [
    "Verif.Props.C38_dropEdges",
    "Verif.Props.C38_raises",
    "Verif.Props.C38_idempotent"
   ],
   "note": "Exact; raising characterised; idempotent. Weights are integers or strings (floats not modelled)."
  },
  {
   "property": "C39",
   "status": "partial",
   "theorems": [
    "Verif.Props.C39_dropNodesByDegree_partial",
    "Verif.Props.C39_undirected",
    "Verif.Props.C39_directed",
    "Verif.Props.C39_degree_after",
    "Verif.Props.C39_dropNodesByCount"
   ],
   "note": "Exact for every graph; in directed graphs the degree is only over outgoing edges (proved disagreement), so the claim about degrees is full only for undirected graphs."
  },
  {
   "property": "C40",
   "status": "proved",
   "theorems": [
    "Verif.Props.C40_mergeGraphs",
    "Verif.Props.C40_sums",
    "Verif.Props.C40_missing_overwrites",
    "Verif.Props.C40_no_node_key",
    "Verif.Props.C40_no_edge_key",
    "Verif.Props.C40_union"
   ],
   "note": "Exact attribute table, sums, and the union of networks. Disagreements for missing counts and a false incrementedEdgeVal are proved."
  },
  {
   "property": "C41",
   "status": "proved",
   "theorems": [
    "Verif.Props.C41_returns",
    "Verif.Props.C41_degrees",
    "Verif.Props.C41_handshake",
    "Verif.Props.C41_distribution",
    "Verif.Props.C41_distribution_sums",
    "Verif.Props.C41_negative"
   ],
   "note": "Degrees, handshake sums and distribution, with the exact raising conditions; negative degrees are misplaced (proved)."
  },
  {
   "property": "C42",
   "status": "proved",
   "theorems": [
    "Verif.Props.C42_succeeds",
    "Verif.Props.C42_file",
    "Verif.Props.TnetText.C42_text_succeeds",
    "Verif.Props.TnetText.C42_text",
    "Verif.Props.TnetText.C42_text_read",
    "Verif.Props.TnetText.C42_time_is_key"
   ],
   "note": "Columns for graphs (C42_succeeds, C42_file); for every class of graph, with timeString and down to the characters of the file: C42_text_succeeds, C42_text, and C42_text_read reads the edges back from the text. The documented meaning of timeString is refuted (C42_time_is_key): keys are written, never the named attribute."
  },
  {
   "property": "C43",
   "status": "partial",
   "theorems": [
    "Verif.Props.C43_round_trip_partial",
    "Verif.Props.C43_strings",
    "Verif.Props.C43_options_raise",
    "Verif.Props.C43_empty",
    "Verif.Props.C43_types_lost"
   ],
   "note": "The graph read back from the two files is given exactly: same nodes and edges in the same order, each with one attribute per column holding the text of its value (empty where it was missing); C43_strings is the case where all attributes are strings and present, and then everything comes back. Partial because types are lost (C43_types_lost), and edgeInfo=False / allSameAttribute=True raise (C43_options_raise). Hypotheses: no carriage return in a name or value, no attribute called ID/Source/Target."
  },
  {
   "property": "C44",
   "status": "partial",
   "theorems": [
    "Verif.Props.JournalDB.C44_lookup",
    "Verif.Props.JournalDB.C44_added",
    "Verif.Props.JournalDB.C44_added_alone",
    "Verif.Props.JournalDB.C44_isJournal_partial",
    "Verif.Props.JournalDB.C44_excluded_partial",
    "Verif.Props.JournalDB.C44_exclusive",
    "Verif.Props.JournalDB.C44_terminates",
    "Verif.Props.JournalDB.C44_stale",
    "Verif.Props.JournalDB.C44_stale_answers",
    "Verif.Props.JournalDB.C44_first",
    "Verif.Props.JournalDB.C44_cite_add",
    "Verif.Props.JournalDB.C44_cite_invert",
    "Verif.Props.JournalDB.C44_cite_unloaded",
    "Verif.Props.JournalDB.C44_session",
    "Verif.Props.JournalDB.C44_manual_missing",
    "Verif.Props.JournalDB.C44_choice_partial",
    "Verif.Props.JournalDB.C44_choice_ignored",
    "Verif.Props.JournalDB.C44_choice_sticks"
   ],
   "note": "Lookups through getj9dict follow the last write, for every history. isJournal and the test for exclusion agree with it only in a session that has not loaded the abbreviations yet; C44_stale and the C44_cite theorems show what happens otherwise."
  },
  {
   "property": "C45",
   "status": "partial",
   "theorems": [
    "Verif.Props.DiffusionCount.C45_count",
    "Verif.Props.DiffusionCount.C45_total",
    "Verif.Props.DiffusionCount.C45_total_single",
    "Verif.Props.DiffusionCount.C45_pairs_partial",
    "Verif.Props.DiffusionCount.C45_extra",
    "Verif.Props.DiffusionCount.C45_compare",
    "Verif.Props.DiffusionCount.C45_shared_citation",
    "Verif.Props.DiffusionCount.C45_compare_error"
   ],
   "note": "Every count is the number of citing pairs when no two source records share a citation (C45_pairs_partial); C45_count says what is counted in general."
  },
  {
   "property": "C46",
   "status": "partial",
   "theorems": [
    "Verif.Props.DiffusionGraph.C46_error",
    "Verif.Props.DiffusionGraph.C46_edges_partial",
    "Verif.Props.DiffusionGraph.C46_joined_partial",
    "Verif.Props.DiffusionGraph.C46_nodes",
    "Verif.Props.DiffusionGraph.C46_labels_error",
    "Verif.Props.DiffusionGraph.C46_labels_nodes",
    "Verif.Props.DiffusionGraph.C46_labels_weighted",
    "Verif.Props.DiffusionGraph.C46_labels_unweighted",
    "Verif.Props.DiffusionGraph.C46_raw_nodes",
    "Verif.Props.DiffusionGraph.C46_raw_witness",
    "Verif.Props.DiffusionGraph.C46_string_witness"
   ],
   "note": "Edges and nodes are characterised for every pair of collections; that the nodes are records is false (C46_raw_nodes), so the property holds only for tags whose values are lists of names."
  },
  {
   "property": "C47",
   "status": "proved",
   "theorems": [
    "Verif.Props.C47_normalizeToTag",
    "Verif.Props.C47_normalizeToName",
    "Verif.Props.C47_inverse",
    "Verif.Props.C47_idempotent",
    "Verif.Props.C47_case",
    "Verif.Props.C47_tagToFull",
    "Verif.Props.C47_isTagOrName",
    "Verif.Props.C47_wos_alternatives",
    "Verif.Props.C47_medline_alternatives",
    "Verif.Props.C47_case_mismatch",
    "Verif.Props.C47_medline_unnamed"
   ],
   "note": "Stated over all strings with an arbitrary letter-case map; the tables are the real ones. The code disagrees on isTagOrName (case sensitive) and two Medline tags have no name of their own."
  },
  {
   "property": "C48",
   "status": "partial",
   "theorems": [
    "Verif.Props.Nserc.C48_file",
    "Verif.Props.Nserc.C48_directory_partial",
    "Verif.Props.Nserc.C48_count_partial",
    "Verif.Props.Nserc.C48_readable",
    "Verif.Props.Nserc.C48_unreadable",
    "Verif.Props.Nserc.C48_clash",
    "Verif.Props.Nserc.C48_key_repeats"
   ],
   "note": "Files: all rows. Directories: all rows, provided no key is the hash of a keyless line (C48_clash shows what happens otherwise) and the directory can be read; it can if no file has two keyless rows with the same values (C48_readable), and need not otherwise (C48_unreadable)."
  },
  {
   "property": "C49",
   "status": "partial",
   "theorems": [
    "Verif.Props.C49_edges_nodes",
    "Verif.Props.C49_attributes",
    "Verif.Props.C49_counts_partial",
    "Verif.Props.C49_counts_wrong"
   ],
   "note": "As C15, for grants. The count attribute is wrong for names listed after another (C49_counts_wrong)."
  },
  {
   "property": "C50",
   "status": "partial",
   "theorems": [
    "Verif.Props.Grants.C50_medline_bad",
    "Verif.Props.Grants.C50_medline",
    "Verif.Props.Grants.C50_medline_ambiguous",
    "Verif.Props.Grants.C50_medline_id_agency",
    "Verif.Props.Grants.C50_medline_id",
    "Verif.Props.Grants.C50_medline_id_none",
    "Verif.Props.Grants.C50_scopus",
    "Verif.Props.Grants.C50_scopus_lost",
    "Verif.Props.Grants.C50_medline_witness",
    "Verif.Props.Grants.C50_scopus_witness"
   ],
   "note": "Medline: fields are determined by the string and the string is rebuilt, except that a leading slash is lost (C50_medline_ambiguous). Scopus: rebuilt iff there are at most three pieces (C50_scopus, C50_scopus_lost)."
  },
  {
   "property": "C51",
   "status": "proved",
   "theorems": [
    "Verif.Props.Grants.C51_names",
    "Verif.Props.Grants.C51_tagged",
    "Verif.Props.Grants.C51_defaults",
    "Verif.Props.Grants.C51_nserc",
    "Verif.Props.Grants.C51_nserc_tags",
    "Verif.Props.Grants.C51_nserc_names",
    "Verif.Props.Grants.C51_nsf",
    "Verif.Props.Grants.C51_nsf_list_grows",
    "Verif.Props.Grants.C51_nserc_list_stable",
    "Verif.Props.Grants.C51_raises"
   ],
   "note": "Names are the stripped pieces of the field. NSERC and NSF add default tags; NSF changes the caller's list (C51_nsf_list_grows)."
  },
  {
   "property": "C52",
   "status": "proved",
   "theorems": [
    "Verif.Props.Grants.C52_mapping",
    "Verif.Props.Grants.C52_keys_once",
    "Verif.Props.Grants.C52_update_flags"
   ],
   "note": "Histories of assignments and deletions; update of NSERC grants appends (C48)."
  },
  {
   "property": "C53",
   "status": "partial",
   "theorems": [
    "Verif.Props.Gender.C53_counts",
    "Verif.Props.Gender.C53_one",
    "Verif.Props.Gender.C53_total",
    "Verif.Props.Gender.C53_authors_partial",
    "Verif.Props.Gender.C53_fractions",
    "Verif.Props.Gender.C53_record_fractions",
    "Verif.Props.Gender.C53_repeated_name",
    "Verif.Props.Gender.C53_other_value",
    "Verif.Props.Gender.C53_list"
   ],
   "note": "The three counts are the numbers of different names per record; they add up to the number of authors when no record repeats a name and the database has no other value."
  },
  {
   "property": "C54",
   "status": "proved",
   "theorems": [
    "Verif.Props.ProgressBar.C54_width",
    "Verif.Props.ProgressBar.C54_text",
    "Verif.Props.ProgressBar.C54_lines",
    "Verif.Props.ProgressBar.C54_fixed",
    "Verif.Props.ProgressBar.C54_exponent",
    "Verif.Props.ProgressBar.C54_time",
    "Verif.Props.ProgressBar.C54_percent",
    "Verif.Props.ProgressBar.C54_screen",
    "Verif.Props.ProgressBar.C54_narrow"
   ],
   "note": "prepString gives exactly n characters iff 6 ≤ n or the string is shorter than n; times and percentages take six characters, so every line and the last line has the width of the terminal from 20 columns on. The test with math.log10 is a parameter that is only assumed to be right up to one percent."
  },
  {
   "property": "C55",
   "status": "proved",
   "theorems": [
    "Verif.Props.Detectors.C55_proquest",
    "Verif.Props.Detectors.C55_proquest_missed",
    "Verif.Props.Detectors.C55_wos",
    "Verif.Props.Detectors.C55_medline",
    "Verif.Props.Detectors.C55_scopus",
    "Verif.Props.FileChoice.C55_first",
    "Verif.Props.FileChoice.C55_file",
    "Verif.Props.FileChoice.C55_extension",
    "Verif.Props.FileChoice.C55_directory",
    "Verif.Props.FileChoice.C55_directory_unknown",
    "Verif.Props.FileChoice.C55_record_order",
    "Verif.Props.FileChoice.C55_wos_written",
    "Verif.Props.FileChoice.C55_medline_written",
    "Verif.Props.FileChoice.C55_medline_taken_for_wos"
   ],
   "note": "The chain of detectors as a whole; detectors of the record formats are modelled on the text of the file. Unknown files in a directory are reported only if an extension was given (C55_directory, C55_directory_unknown)."
  },
  {
   "property": "C56",
   "status": "proved",
   "theorems": [
    "Verif.Props.C56_dropNonJournals"
   ],
   "note": "Exact characterisation of the records kept."
  },
  {
   "property": "C57",
   "status": "proved",
   "theorems": [
    "Verif.Props.C57_rows",
    "Verif.Props.C57_words",
    "Verif.Props.C57_words_lossless",
    "Verif.Props.Words.C57_words_exact",
    "Verif.Props.Words.C57_dropList"
   ],
   "note": "Full characterisation of the rows, plus facts on the words."
  },
  {
   "property": "C58",
   "status": "partial",
   "theorems": [
    "Verif.Props.MedlineFiles.C58_round_trip",
    "Verif.Props.MedlineFiles.C58_total",
    "Verif.Props.MedlineFiles.C58_prefix_partial",
    "Verif.Props.MedlineFiles.C58_raises",
    "Verif.Props.MedlineFiles.C58_truncation_silent",
    "Verif.Props.MedlineFiles.C58_last_character"
   ],
   "note": "The part 'records in front of the damage are returned' holds only when the reader returns: a short line of letters raises IndexError and everything is lost (C58_raises). A truncated file reads without an error."
  },
  {
   "property": "C59",
   "status": "partial",
   "theorems": [
    "Verif.Props.ScopusFiles.C59_round_trip",
    "Verif.Props.ScopusFiles.C59_written",
    "Verif.Props.ScopusFiles.C59_header_order_ignored"
   ],
   "note": "Round trip proved. The second part is false: the order of the header of the file is ignored whenever it has the known columns (C59_header_order_ignored)."
  },
  {
   "property": "C60",
   "status": "proved",
   "theorems": [
    "Verif.Props.JournalPage.C60_page",
    "Verif.Props.JournalPage.C60_pages"
   ],
   "note": "For every page and every list of pages."
  },
  {
   "property": "C61",
   "status": "proved",
   "theorems": [
    "Verif.Props.WriteCsv.C61_selected",
    "Verif.Props.WriteCsv.C61_unselected",
    "Verif.Props.WriteCsv.C61_file",
    "Verif.Props.WriteCsv.C61_long_names",
    "Verif.Props.WriteCsv.C61_long_names_default",
    "Verif.Props.WriteCsv.C61_split",
    "Verif.Props.WriteCsv.C61_split_raises",
    "Verif.Props.WriteCsv.C61_fileName",
    "Verif.Props.WriteCsv.C61_baseName",
    "Verif.Props.WriteCsv.C61_shared_file",
    "Verif.Props.WriteCsv.C61_first_tags_changed",
    "Verif.Props.WriteCsv.C61_first_tags_otherwise",
    "Verif.Props.WriteCsv.C61_twice_counts"
   ],
   "note": "Reading back is stated with a model of Python's csv reader. The file system is not modelled: two values that agree in their first 200 characters share a file (C61_shared_file), and then only the text written for each value is known. Values that are lists of something else than strings make a split raise (C61_split_raises). The list given as firstTags is changed by the call (C61_first_tags_changed, C61_twice_counts); longNames with the default first tags always raises, since 'id' has no long name (C61_long_names_default)."
  },
  {
   "property": "C62",
   "status": "proved",
   "theorems": [
    "Verif.Props.CollHeap.C62_share_nothing",
    "Verif.Props.CollHeap.C62_others_untouched",
    "Verif.Props.CollHeap.C62_copy_equal"
   ],
   "note": "Refinement of the store with addresses to a list of independent values, whose operations are those of Model/Collection (C01-C03). Chunk, split and the constructors that read files are not among the operations."
  },
  {
   "property": "C63",
   "status": "proved",
   "theorems": [
    "Verif.Props.GetCitations.C63_filter",
    "Verif.Props.GetCitations.C63_distinct",
    "Verif.Props.GetCitations.C63_table",
    "Verif.Props.GetCitations.C63_totals",
    "Verif.Props.GetCitations.C63_year_totals"
   ],
   "note": "Fractions are exact rationals instead of floats; citations and years are different keys of the count dictionary. The sum of one within a year needs that the ID settles the year."
  },
  {
   "property": "C64",
   "status": "proved",
   "theorems": [
    "Verif.Props.RecordEq.C64_laws",
    "Verif.Props.RecordEq.C64_good_iff",
    "Verif.Props.RecordEq.C64_bad_iff",
    "Verif.Props.RecordEq.C64_sources",
    "Verif.Props.RecordEq.C64_transitive",
    "Verif.Props.RecordEq.C64_not_transitive_with_base",
    "Verif.Props.RecordEq.C64_collision",
    "Verif.Props.RecordEq.C64_set"
   ],
   "note": "Needs that Python's hash does not collide on the IDs compared: C64_collision shows that colliding IDs make different records equal. Not transitive when plain Record objects are mixed in (C64_not_transitive_with_base)."
  },
  {
   "property": "C65",
   "status": "partial",
   "theorems": [
    "Verif.Props.BibEntry.C65_fields",
    "Verif.Props.BibEntry.C65_entry",
    "Verif.Props.BibEntry.C65_entry_fails",
    "Verif.Props.BibEntry.C65_plain_key",
    "Verif.Props.BibEntry.C65_wos_entry",
    "Verif.Props.BibEntry.C65_wos_key",
    "Verif.Props.BibEntry.C65_nice_untitled",
    "Verif.Props.BibEntry.C65_nice_key",
    "Verif.Props.BibEntry.C65_nice_short",
    "Verif.Props.BibEntry.C65_nice_collision",
    "Verif.Props.BibEntry.C65_nice_witness",
    "Verif.Props.BibEntry.C65_header",
    "Verif.Props.BibEntry.C65_file",
    "Verif.Props.BibEntry.C65_bad_record"
   ],
   "note": "Entries, fields, plain keys, nice keys and the file proved. Refuted: nice keys do not identify the record (C65_nice_collision, C65_nice_witness: also cut at a comma of the title); bad records end writeBib with BadRecord instead of being left out (C65_bad_record). Entry lines need key, authors, tags and values without line breaks."
  },
  {
   "property": "C66",
   "status": "partial",
   "theorems": [
    "Verif.Props.ExpandCore.C66_nodes",
    "Verif.Props.ExpandCore.C66_outside",
    "Verif.Props.ExpandCore.C66_keeps",
    "Verif.Props.ExpandCore.C66_links",
    "Verif.Props.ExpandCore.C66_self_links",
    "Verif.Props.ExpandCore.C66_no_others",
    "Verif.Props.ExpandCore.C66_weights",
    "Verif.Props.ExpandCore.C66_both",
    "Verif.Props.ExpandCore.C66_never_raises",
    "Verif.Props.ExpandCore.C66_raises",
    "Verif.Props.ExpandCore.C66_not_joined",
    "Verif.Props.ExpandCore.C66_only_later",
    "Verif.Props.ExpandCore.C66_weight_overwritten"
   ],
   "note": "Proved for every network and collection: nodes, links, attributes, weights of one record, that nothing is lost and no other link made, and that a weighted or directed network never raises. The documentation's claims that fail are proved to fail (C66_raises, C66_not_joined, C66_only_later, C66_weight_overwritten); every added citation gets a link to itself (C66_self_links)."
  },
  {
   "property": "C67",
   "status": "partial",
   "theorems": [
    "Verif.Props.Nsf.C67_leaf",
    "Verif.Props.Nsf.C67_list",
    "Verif.Props.Nsf.C67_absent",
    "Verif.Props.Nsf.C67_investigators",
    "Verif.Props.Nsf.C67_organizations",
    "Verif.Props.Nsf.C67_raises",
    "Verif.Props.Nsf.C67_entry",
    "Verif.Props.Nsf.C67_names",
    "Verif.Props.Nsf.C67_id",
    "Verif.Props.Nsf.C67_file",
    "Verif.Props.Nsf.C67_no_award",
    "Verif.Props.Nsf.C67_empty_id",
    "Verif.Props.Nsf.C67_repeated_lost"
   ],
   "note": "Closed forms for every field of every award tree, names as getInvestigators returns them, and the exact condition for AttributeError. The claim fails for the three documented cases (C67_raises, C67_empty_id, C67_repeated_lost). XML parsing itself is not modelled."
  },
  {
   "property": "C68",
   "status": "partial",
   "theorems": [
    "Verif.Props.CsvGrants.C68_rows",
    "Verif.Props.CsvGrants.C68_cihr_rows",
    "Verif.Props.CsvGrants.C68_rows_later",
    "Verif.Props.CsvGrants.C68_ids",
    "Verif.Props.CsvGrants.C68_error",
    "Verif.Props.CsvGrants.C68_values",
    "Verif.Props.CsvGrants.C68_bad",
    "Verif.Props.CsvGrants.C68_nserc_file",
    "Verif.Props.CsvGrants.C68_cihr_file",
    "Verif.Props.CsvGrants.C68_fallback_file",
    "Verif.Props.CsvGrants.C68_fallback_set",
    "Verif.Props.CsvGrants.C68_cihr_set_partial",
    "Verif.Props.CsvGrants.C68_twin_lost",
    "Verif.Props.CsvGrants.C68_id_changes"
   ],
   "note": "Rows, ids, values, bad flags and detectors for every text. 'Reading a file is not an error' is proved before PEP 479 and refuted from Python 3.7 on (C68_error); the ids differ between runs (C68_id_changes). In the set a table loses no grant (C68_fallback_set), a CIHR file only bad ones with the values of another (C68_cihr_set_partial, C68_twin_lost). csv.Error and decoding errors are not modelled."
  },
  {
   "property": "C69",
   "status": "partial",
   "theorems": [
    "Verif.Props.WosFields.C69_text",
    "Verif.Props.WosFields.C69_text_upper",
    "Verif.Props.WosFields.C69_abstract",
    "Verif.Props.WosFields.C69_lines",
    "Verif.Props.WosFields.C69_lists",
    "Verif.Props.WosFields.C69_keywords",
    "Verif.Props.WosFields.C69_lists_lossless",
    "Verif.Props.WosFields.C69_sponsors",
    "Verif.Props.WosFields.C69_first",
    "Verif.Props.WosFields.C69_continuation_lost",
    "Verif.Props.WosFields.C69_counts",
    "Verif.Props.WosFields.C69_year",
    "Verif.Props.WosFields.C69_year_digits",
    "Verif.Props.WosFields.C69_month",
    "Verif.Props.WosFields.C69_month_range",
    "Verif.Props.WosFields.C69_month_not_a_number",
    "Verif.Props.WosFields.C69_addresses",
    "Verif.Props.WosFields.C69_address_swallowed",
    "Verif.Props.WosFields.C69_raises",
    "Verif.Props.WosFields.C69_known",
    "Verif.Props.WosFields.C69_every_tag"
   ],
   "note": "Proved except where the code departs: fields of one line lose their continuation (C69_continuation_lost), months of digits are texts (C69_month_not_a_number), unclosed brackets (C69_address_swallowed)."
  },
  {
   "property": "C70",
   "status": "partial",
   "theorems": [
    "Verif.Props.MedlineFields.C70_first",
    "Verif.Props.MedlineFields.C70_lines",
    "Verif.Props.MedlineFields.C70_unreadable",
    "Verif.Props.MedlineFields.C70_authors",
    "Verif.Props.MedlineFields.C70_addresses_text",
    "Verif.Props.MedlineFields.C70_affiliation_lost",
    "Verif.Props.MedlineFields.C70_address",
    "Verif.Props.MedlineFields.C70_year",
    "Verif.Props.MedlineFields.C70_year_in_word",
    "Verif.Props.MedlineFields.C70_year_total",
    "Verif.Props.MedlineFields.C70_year_negative",
    "Verif.Props.MedlineFields.C70_month",
    "Verif.Props.MedlineFields.C70_volume",
    "Verif.Props.MedlineFields.C70_page",
    "Verif.Props.MedlineFields.C70_doi"
   ],
   "note": "Proved except where the code departs: C70_affiliation_lost, C70_year_negative, C70_unreadable."
  },
  {
   "property": "C71",
   "status": "partial",
   "theorems": [
    "Verif.Props.OtherFields.C71_scopus_lists",
    "Verif.Props.OtherFields.C71_scopus_lossless",
    "Verif.Props.OtherFields.C71_scopus_values",
    "Verif.Props.OtherFields.C71_scopus_unknown",
    "Verif.Props.OtherFields.C71_scopus_author_cut",
    "Verif.Props.OtherFields.C71_proquest_single",
    "Verif.Props.OtherFields.C71_proquest_other",
    "Verif.Props.OtherFields.C71_proquest_lists",
    "Verif.Props.OtherFields.C71_proquest_classification",
    "Verif.Props.OtherFields.C71_proquest_special",
    "Verif.Props.OtherFields.C71_proquest_authorsFull",
    "Verif.Props.OtherFields.C71_proquest_year"
   ],
   "note": "Proved except where the code departs: C71_proquest_authorsFull, C71_proquest_year, C71_scopus_author_cut."
  },
  {
   "property": "C72",
   "status": "partial",
   "theorems": [
    "Verif.Props.Glimpse.C72_compact",
    "Verif.Props.Glimpse.C72_plain",
    "Verif.Props.Glimpse.C72_default_size",
    "Verif.Props.Glimpse.C72_small_raises",
    "Verif.Props.Glimpse.C72_long_title"
   ],
   "note": "For texts that fit (structure Fits: no line breaks, titles not longer than their column, ranks of at most two characters). Terminals 76 or 77 wide get one line more than planned, six-row terminals narrower than 76 raise IndexError (C72_small_raises), long titles misalign (C72_long_title)."
  },
  {
   "property": "C73",
   "status": "proved",
   "theorems": [
    "Verif.Props.ProQuestFile.C73_reads",
    "Verif.Props.ProQuestFile.C73_record",
    "Verif.Props.ProQuestFile.C73_rest",
    "Verif.Props.ProQuestFile.C73_no_contents",
    "Verif.Props.ProQuestFile.C73_set",
    "Verif.Props.ProQuestFile.C73_twin_lost",
    "Verif.Props.ProQuestFile.C73_trailing_blank",
    "Verif.Props.ProQuestFile.C73_number_raises"
   ],
   "note": "Read without error iff the file has the format (C73_reads); every other outcome behind a readable table of contents is classified (C73_rest). The set of records has the first of all equal records (C73_set, C73_twin_lost). A number that is not listed and a line that continues nothing raise KeyError instead of returning an error (C73_number_raises); a title with a blank at its end is refused (C73_trailing_blank)."
  },
  {
   "property": "C74",
   "status": "partial",
   "theorems": [
    "Verif.Props.DiffusionTables.C74_raw",
    "Verif.Props.DiffusionTables.C74_raw_extra",
    "Verif.Props.DiffusionTables.C74_columns_collide",
    "Verif.Props.DiffusionTables.C74_tag",
    "Verif.Props.DiffusionTables.C74_tag_extra",
    "Verif.Props.DiffusionTables.C74_counts",
    "Verif.Props.DiffusionTables.C74_counts_kept",
    "Verif.Props.DiffusionTables.C74_counts_emptied",
    "Verif.Props.DiffusionTables.C74_extra_counts",
    "Verif.Props.DiffusionTables.C74_local_zero"
   ],
   "note": "Proved for tables of records, of a tag, with and without extra values. Partial because the code breaks the claim in two ways, both proved: the column of the extra field is twice as long as the others when a counted source has that field, and compareCounts with an extra value shows 0 for every local count of a tag."
  },
  {
   "property": "C75",
   "status": "partial",
   "theorems": [
    "Verif.Props.NodeInfo.C75_core",
    "Verif.Props.NodeInfo.C75_core_raises",
    "Verif.Props.NodeInfo.C75_detailed",
    "Verif.Props.NodeInfo.C75_outside",
    "Verif.Props.NodeInfo.C75_other",
    "Verif.Props.NodeInfo.C75_year_left_out"
   ],
   "note": "Proved for all node types and options. Partial: numbers are left out of info (the year asked for by detailedCore = True never appears, C75_year_left_out), and an empty list in an asked field raises (C75_core_raises)."
  },
  {
   "property": "C76",
   "status": "partial",
   "theorems": [
    "Verif.Props.GraphStats.C76_unknown",
    "Verif.Props.GraphStats.C76_tuple",
    "Verif.Props.GraphStats.C76_lines",
    "Verif.Props.GraphStats.C76_sentence",
    "Verif.Props.GraphStats.C76_counts_exact",
    "Verif.Props.GraphStats.C76_counts_rounded",
    "Verif.Props.GraphStats.C76_counts_nearest",
    "Verif.Props.GraphStats.C76_same_text"
   ],
   "note": "Proved for all graphs and lists of names. Partial: counts of a million or more are rounded to six digits in the text (C76_counts_rounded, C76_same_text); C76_counts_nearest says to which. Density and transitivity are the numbers networkx gives."
  },
  {
   "property": "C77",
   "status": "partial",
   "theorems": [
    "Verif.Props.ScopusCite.C77_parses_back_partial",
    "Verif.Props.ScopusCite.C77_page_as_volume",
    "Verif.Props.ScopusCite.C77_bad",
    "Verif.Props.ScopusCite.C77_multi_bad"
   ],
   "note": "Proved for authors written as Scopus writes names, years of two to five digits, journals without a comma, volumes and pages of letters, digits and dashes. Fails when there is a page but no volume, and for multiCite; both negations are proved in general."
  },
  {
   "property": "C78",
   "status": "partial",
   "theorems": [
    "Verif.Props.RecordHeap.C78_copies_partial",
    "Verif.Props.RecordHeap.C78_copy_shares",
    "Verif.Props.RecordHeap.C78_same_list",
    "Verif.Props.RecordHeap.C78_wos_partial",
    "Verif.Props.RecordHeap.C78_wos_shares",
    "Verif.Props.RecordHeap.C78_written_file_changes"
   ],
   "note": "Proved for programs that do not change lists of tags whose value is the raw list itself (WOS: AF, AU, BA, BE, BF, ED and unknown tags); for those the copy shares the list with the original and the property is proved false in general (C78_copy_shares, C78_wos_shares). selfCitation is not in this model."
  },
  {
   "property": "C79",
   "status": "partial",
   "theorems": [
    "Verif.Props.MdToNb.C79_lines",
    "Verif.Props.MdToNb.C79_code_cells",
    "Verif.Props.MdToNb.C79_notebook_partial",
    "Verif.Props.MdToNb.C79_last_line",
    "Verif.Props.MdToNb.C79_last_line_invalid",
    "Verif.Props.MdToNb.C79_backslash"
   ],
   "note": "C79_notebook_partial is the whole property for files that end with a line end and have no backslashes and control characters. Other files violate it (C79_last_line, C79_last_line_invalid, C79_backslash): a file without a final line end loses its last 11 characters, backslashes are not escaped. C79_lines and C79_code_cells are about the cells before they are written and hold for every file."
  },
  {
   "property": "C80",
   "status": "partial",
   "theorems": [
    "Verif.Props.Cli.C80_exact",
    "Verif.Props.Cli.C80_filters_partial",
    "Verif.Props.Cli.C80_any_graph_partial",
    "Verif.Props.Cli.C80_no_filter_raises",
    "Verif.Props.Cli.C80_above",
    "Verif.Props.Cli.C80_above_witness",
    "Verif.Props.Cli.C80_isolates_directed",
    "Verif.Props.Cli.C80_isolates_directed_witness",
    "Verif.Props.Cli.C80_console"
   ],
   "note": "C80_exact says for every graph and dialogue what is done. That is what the menu says for undirected graphs with positive whole weights and dialogues without the two filters 'above' (C80_filters_partial), and for all graphs when isolated nodes are not to be dropped either (C80_any_graph_partial). The filters 'above' remove what is below (C80_above, C80_above_witness), 'Drop isolates' drops nodes with only incoming edges of directed graphs (C80_isolates_directed), and returning from the console raises (C80_console). With a number as the weight of every edge no filter raises (C80_no_filter_raises)."
  },
  {
   "property": "C81",
   "status": "partial",
   "theorems": [
    "Verif.Props.Cli.C81_output_name_partial",
    "Verif.Props.Cli.C81_name_option",
    "Verif.Props.Cli.C81_graph_name_partial",
    "Verif.Props.Cli.C81_empty_name"
   ],
   "note": "Proved without --name (C81_output_name_partial, C81_graph_name_partial); with it existing files are overwritten without a question (C81_name_option). An empty name is accepted where there is a suffix (C81_empty_name). Files are taken not to appear or vanish during the dialogue."
  },
  {
   "property": "C82",
   "status": "partial",
   "theorems": [
    "Verif.Props.CollectionAdd.C82_sum_partial",
    "Verif.Props.CollectionAdd.C82_type_error",
    "Verif.Props.CollectionAdd.C82_errors_lost",
    "Verif.Props.CollectionAdd.C82_bytes",
    "Verif.Props.CollectionAdd.C82_bytes_reread"
   ],
   "note": "Members, name, types and TypeErrors of sums are proved (C82_sum_partial, C82_type_error); the errors of the operands are lost (C82_errors_lost). bytes is proved outright (C82_bytes, C82_bytes_reread)."
  },
  {
   "property": "C83",
   "status": "partial",
   "theorems": [
    "Verif.Props.CiteText.C83_extra_partial",
    "Verif.Props.CiteText.C83_scopus",
    "Verif.Props.CiteText.C83_written",
    "Verif.Props.CiteText.C83_extra_lost"
   ],
   "note": "C83_extra_partial is for every WOS citation string, C83_written says what it means for citations in the usual form. Scopus citations raise (C83_scopus), and text before the DOI is lost with it (C83_extra_lost)."
  },
  {
   "property": "C84",
   "status": "proved",
   "theorems": [
    "Verif.Props.CollectionAdd.C84_copyrights",
    "Verif.Props.CollectionAdd.C84_same_set"
   ],
   "note": "For all abstracts. What a copyright statement is, is specified in Spec/Copyright without reference to the code. The records are given by their abstracts, missing ones as empty strings."
  },
  {
   "property": "C85",
   "status": "partial",
   "theorems": [
    "Verif.Props.GrantNetwork.C85_alone_partial",
    "Verif.Props.GrantNetwork.C85_nsf_list",
    "Verif.Props.GrantNetwork.C85_nsf_self",
    "Verif.Props.GrantNetwork.C85_nserc_list_partial",
    "Verif.Props.GrantNetwork.C85_order_partial",
    "Verif.Props.GrantNetwork.C85_order_matters",
    "Verif.Props.GrantNetwork.C85_leaks"
   ],
   "note": "Holds when targetTags is none or a string, for grants of the other classes, and (edges and nodes) for NSERC grants with a list. Fails for a list of tags with NSF grants, which append to the shared list: the k-th grant is counted k times and its holders are linked to themselves. The counts of nodes are the subject of C49."
  },
  {
   "property": "C86",
   "status": "partial",
   "theorems": [
    "Verif.Props.CommonNames.C86_medline",
    "Verif.Props.CommonNames.C86_scopus",
    "Verif.Props.CommonNames.C86_proQuest",
    "Verif.Props.CommonNames.C86_wos"
   ],
   "note": "C86_scopus, C86_medline and C86_wos hold as stated; C86_proQuest says exactly what holds: authorsFull is the constant 'Author', never a field, and beginningPage is always 0."
  },
  {
   "property": "C87",
   "status": "partial",
   "theorems": [
    "Verif.Props.CliRun.C87_network",
    "Verif.Props.CliRun.C87_job",
    "Verif.Props.CliRun.C87_output",
    "Verif.Props.CliRun.C87_files",
    "Verif.Props.CliRun.C87_missing",
    "Verif.Props.CliRun.C87_files_asked",
    "Verif.Props.CliRun.C87_files_read",
    "Verif.Props.CliRun.C87_trailing_blank",
    "Verif.Props.CliRun.C87_citations",
    "Verif.Props.CliRun.C87_console",
    "Verif.Props.CliRun.C87_small_letters"
   ],
   "note": "The dialogues are characterised exactly. Partial because i at a menu ends the tool with a TypeError (C87_console), tags with small letters can not be chosen (C87_small_letters), and a blank at the end of the line of files adds the working directory (C87_trailing_blank)."
  },
  {
   "property": "C88",
   "status": "partial",
   "theorems": [
    "Verif.Props.CliReview.C88_review_partial",
    "Verif.Props.CliReview.C88_other_database",
    "Verif.Props.CliReview.C88_not_over"
   ],
   "note": "Every end of the review is covered. Partial because the answer no goes to the default database and not to the named one (C88_other_database), and because a skipped journal cited again, or a citation whose journal is None, ends the review with an exception (C88_not_over, and Ended in Spec/CliReview). Journals are taken not to be the empty string."
  },
  {
   "property": "C89",
   "status": "partial",
   "theorems": [
    "Verif.Props.NetworkAttrs.C89_two_mode",
    "Verif.Props.NetworkAttrs.C89_two_mode_counts",
    "Verif.Props.NetworkAttrs.C89_two_mode_types",
    "Verif.Props.NetworkAttrs.C89_multi_level_partial",
    "Verif.Props.NetworkAttrs.C89_repeat_raises",
    "Verif.Props.NetworkAttrs.C89_number_raises",
    "Verif.Props.NetworkAttrs.C89_one_mode",
    "Verif.Props.NetworkAttrs.C89_text_taken_apart",
    "Verif.Props.NetworkAttrs.C89_multi_mode",
    "Verif.Props.NetworkTypes.C89_two_mode_left_out"
   ],
   "note": "Two-mode networks are right, except that a count is lost as well when the first record of a node has no value of the edge tag (exactly characterised). Multi-level and one-mode networks with weights raise as soon as two values co-occur twice with one value of the edge tag (a networkx 2 multigraph wants the key to find an edge), a text is taken apart into characters and a number raises. n-mode networks raise as soon as a record has values under two tags. All proved."
  },
  {
   "property": "C90",
   "status": "partial",
   "theorems": [
    "Verif.Props.NetworkAttrs.C90_exact",
    "Verif.Props.NetworkAttrs.C90_complete",
    "Verif.Props.NetworkAttrs.C90_alone_partial",
    "Verif.Props.NetworkAttrs.C90_shared",
    "Verif.Props.NetworkAttrs.C90_number_raises",
    "Verif.Props.NetworkAttrs.C90_with_edge_tag",
    "Verif.Props.NetworkAttrs.C90_one_mode"
   ],
   "note": "The list is complete and begins with the values of the first record; but nodes first met in the same record share one list, so it may hold values of records the node does not occur in, depending on the order of visiting. Characterised exactly; a year or other number raises."
  },
  {
   "property": "C91",
   "status": "partial",
   "theorems": [
    "Verif.Props.CollectionMixed.C91_stored_partial",
    "Verif.Props.CollectionMixed.C91_iterator_empty",
    "Verif.Props.CollectionMixed.C91_cached",
    "Verif.Props.CollectionMixed.C91_nothing",
    "Verif.Props.CollectionMixed.C91_left_set",
    "Verif.Props.CollectionMixed.C91_right_set",
    "Verif.Props.CollectionMixed.C91_same_class_partial",
    "Verif.Props.CollectionMixed.C91_other_class",
    "Verif.Props.CollectionMixed.C91_compare",
    "Verif.Props.CollectionMixed.C91_plain_sets",
    "Verif.Props.CollectionMixed.C91_isdisjoint"
   ],
   "note": "Holds for lists, sets and other stored iterables and for operands of one class (_partial theorems). False of the code for iterators (the collection is empty), for an ordinary set on the left (the result is an empty collection, ^ raises), and for an empty collection of the other class on the left of | (the members on the right are lost); <= and < of two collections compare sizes only. All of this is proved in general. cached with grants and no directory raises."
  },
  {
   "property": "C92",
   "status": "partial",
   "theorems": [
    "Verif.Props.ProgressThread.C92_closed",
    "Verif.Props.ProgressThread.C92_output_partial",
    "Verif.Props.ProgressThread.C92_moment",
    "Verif.Props.ProgressThread.C92_wait",
    "Verif.Props.ProgressThread.C92_no_deadlock",
    "Verif.Props.ProgressThread.C92_quiet",
    "Verif.Props.ProgressThread.C92_unclosed",
    "Verif.Props.ProgressThread.C92_edge_list",
    "Verif.Props.ProgressThread.C92_parts"
   ],
   "note": "Proved for all interleavings for operations that close their bar (by finish or with). False of the code for bars that are not closed: writeEdgeList and writeNodeAttributeFile with a graph without edges or nodes leave a thread behind that never stops writing (C92_unclosed, C92_edge_list). Exceptions inside the thread, secondRow and two bars at once are not modelled."
  },
  {
   "property": "C93",
   "status": "partial",
   "theorems": [
    "Verif.Props.CliSession.C93_session",
    "Verif.Props.CliSession.C93_only_named",
    "Verif.Props.CliSession.C93_agreed_partial",
    "Verif.Props.CliSession.C93_left",
    "Verif.Props.CliSession.C93_ends",
    "Verif.Props.CliSession.C93_status"
   ],
   "note": "Proved for every list of lines, file system and failure (C93_session, C93_ends, C93_only_named, C93_left). Partial because with --name existing files are overwritten without a question (C93_agreed_partial is without it; C81_name_option), and because the exit status is wrong: a session that ends normally has status 1, as one that fails, and one that is left early has 0 (C93_status)."
  },
  {
   "property": "C94",
   "status": "partial",
   "theorems": [
    "Verif.Props.OptionLists.C94_selections_partial",
    "Verif.Props.OptionLists.C94_no_tag_is_a_name",
    "Verif.Props.OptionLists.C94_left_alone",
    "Verif.Props.OptionLists.C94_tuple",
    "Verif.Props.OptionLists.C94_nlp_partial",
    "Verif.Props.OptionLists.C94_nlp_shared",
    "Verif.Props.OptionLists.C94_nlp_list",
    "Verif.Props.OptionLists.C94_first_grows",
    "Verif.Props.OptionLists.C94_first_partial"
   ],
   "note": "Proved for selections (any mix of makeDict and writeCSV), for forNLP alone, and for the same writeCSV repeated; false, with proofs, when forNLP shares its list with another call and for firstTags on different collections; lists with long names are changed (C94_left_alone) and tuples with long names refused (C94_tuple)."
  },
  {
   "property": "C95",
   "status": "partial",
   "theorems": [
    "Verif.Props.YearDiff.C95_same_network",
    "Verif.Props.YearDiff.C95_first_partial",
    "Verif.Props.YearDiff.C95_years_partial",
    "Verif.Props.YearDiff.C95_order_partial",
    "Verif.Props.YearDiff.C95_good_full",
    "Verif.Props.YearDiff.C95_good_original",
    "Verif.Props.YearDiff.C95_only_there",
    "Verif.Props.YearDiff.C95_order_matters",
    "Verif.Props.YearDiff.C95_never_added"
   ],
   "note": "Proved: forgetting yearDiff gives the networks of C17 for all options; in weighted full/original networks the attribute is that of the first citation along the edge; with one year per node (proved for good citations under full and for Web of Science strings under original) it is the number of years between the two works in any order of records; no other network has it. Fails: works sharing an id with different years (order decides), and edges first made by a record without an identifying string never get it."
  },
  {
   "property": "C96",
   "status": "partial",
   "theorems": [
    "Verif.Props.SeriesFiles.C96_ranked",
    "Verif.Props.SeriesFiles.C96_ranked_raises",
    "Verif.Props.SeriesFiles.C96_ranked_row",
    "Verif.Props.SeriesFiles.C96_time",
    "Verif.Props.SeriesFiles.C96_time_records",
    "Verif.Props.SeriesFiles.C96_burst",
    "Verif.Props.SeriesFiles.C96_nlp_partial",
    "Verif.Props.SeriesFiles.C96_nlp_repeated",
    "Verif.Props.SeriesFiles.C96_windows"
   ],
   "note": "Full for rankedSeries, timeSeries and forBurst. forNLP: proved for extra columns without repetitions and without a clash with 'copyright'; otherwise the code disagrees (C96_nlp_repeated). Windows: the code disagrees (C96_windows)."
  },
  {
   "property": "C97",
   "status": "partial",
   "theorems": [
    "Verif.Props.CiteProfile.C97_profile",
    "Verif.Props.CiteProfile.C97_profile_partial",
    "Verif.Props.CiteProfile.C97_two_authors",
    "Verif.Props.CiteProfile.C97_network"
   ],
   "note": "C97_profile gives the exact numbers for every author, C97_network that the rest is unchanged. The claim as stated holds for authors who come alone into the network and are always first (C97_profile_partial) and fails otherwise (C97_two_authors)."
  },
  {
   "property": "C98",
   "status": "partial",
   "theorems": [
    "Verif.Props.GraphPaths.C98_files_partial",
    "Verif.Props.GraphPaths.C98_read_back",
    "Verif.Props.GraphPaths.C98_kept",
    "Verif.Props.GraphPaths.C98_apart",
    "Verif.Props.GraphPaths.C98_lost",
    "Verif.Props.GraphPaths.C98_trailing_slash",
    "Verif.Props.GraphPaths.C98_no_name",
    "Verif.Props.GraphPaths.C98_home_parent"
   ],
   "note": "C98_files_partial gives the two files, the frame, the OSError and the texts for every name whose last part is a name and which has no part starting with a tilde; C98_read_back composes it with C43; C98_kept holds for all names and options; C98_apart for pairs of calls. Partial because a trailing slash (C98_trailing_slash), the empty name (C98_no_name) and ~/.. (C98_home_parent) do not lead where the name says, and edgeInfo=False empties an existing edge list before it raises (C98_lost)."
  },
  {
   "property": "C99",
   "status": "partial",
   "theorems": [
    "Verif.Props.WriteFile.C99_one_file",
    "Verif.Props.WriteFile.C99_wos",
    "Verif.Props.WriteFile.C99_medline",
    "Verif.Props.WriteFile.C99_scopus",
    "Verif.Props.WriteFile.C99_unmarked_wos",
    "Verif.Props.WriteFile.C99_unmarked_scopus",
    "Verif.Props.WriteFile.C99_operators",
    "Verif.Props.WriteFile.C99_union_lost",
    "Verif.Props.WriteFile.C99_noted",
    "Verif.Props.WriteFile.C99_filled",
    "Verif.Props.WriteFile.C99_text",
    "Verif.Props.WriteFile.C99_stop",
    "Verif.Props.WriteFile.C99_stop_wos",
    "Verif.Props.WriteFile.C99_not_latin",
    "Verif.Props.WriteFile.C99_garbled",
    "Verif.Props.WriteFile.C99_default",
    "Verif.Props.WriteFile.C99_source",
    "Verif.Props.WriteFile.C99_directory"
   ],
   "note": "One file changes, round trips through bytes for the three sources, the text for mixtures and what failures leave behind are proved; the property fails for collections made by operators, read from directories, of mixed types with Medline letters outside ASCII, and over the source file when a record is bad (each proved)."
  },
  {
   "property": "C100",
   "status": "partial",
   "theorems": [
    "Verif.Props.Notebook.C100_json_unique",
    "Verif.Props.Notebook.C100_notebook_partial",
    "Verif.Props.Notebook.C100_empty",
    "Verif.Props.Notebook.C100_no_json",
    "Verif.Props.Notebook.C100_one",
    "Verif.Props.Notebook.C100_all",
    "Verif.Props.Notebook.C100_missing",
    "Verif.Props.Notebook.C100_stop",
    "Verif.Props.Notebook.C100_own",
    "Verif.Props.Notebook.C100_collision"
   ],
   "note": "The files are as stated for inputs with different notebooks none of which is an input; the text is for files that end with a line end and have no backslashes and control characters. The rest is false (C100_own, C100_collision, C100_no_json)."
  },
  {
   "property": "C101",
   "status": "partial",
   "theorems": [
    "Verif.Props.Plotting.C101_typed",
    "Verif.Props.Plotting.C101_distinct_partial",
    "Verif.Props.Plotting.C101_reused",
    "Verif.Props.Plotting.C101_plain",
    "Verif.Props.Plotting.C101_empty",
    "Verif.Props.Plotting.C101_refused",
    "Verif.Props.Plotting.C101_short"
   ],
   "note": "Colours are distinct only for at most eight types, and mixed graphs are not always refused: see Disagreements."
  },
  {
   "property": "C102",
   "status": "partial",
   "theorems": [
    "Verif.Props.Plotting.C102_cell",
    "Verif.Props.Plotting.C102_quadrant_partial",
    "Verif.Props.Plotting.C102_square",
    "Verif.Props.Plotting.C102_wrapped",
    "Verif.Props.Plotting.C102_computed",
    "Verif.Props.Plotting.C102_outside",
    "Verif.Props.Plotting.C102_args"
   ],
   "note": "Cells are right only for layouts without negative coordinates; in the rest of the documented square nodes are counted modulo the grid size: see Disagreements. The blur and the drawing are not modelled."
  },
  {
   "property": "C103",
   "status": "partial",
   "theorems": [
    "Verif.Props.CacheRace.C103_parallel",
    "Verif.Props.CacheRace.C103_alone",
    "Verif.Props.CacheRace.C103_alone_rejected",
    "Verif.Props.CacheRace.C103_source",
    "Verif.Props.CacheRace.C103_right_partial",
    "Verif.Props.CacheRace.C103_half_written",
    "Verif.Props.CacheRace.C103_removed_twice",
    "Verif.Props.CacheRace.C103_killed",
    "Verif.Props.CacheRace.C103_mixed",
    "Verif.Props.CacheRace.C103_wrong"
   ],
   "note": "Proved: with a complete cache loads do not disturb each other (C103_parallel); a load alone without a cache or with a rejected one ends right and leaves a complete cache (C103_alone, C103_alone_rejected); where the result of any load comes from in any interleaving (C103_source) and hence C103_right_partial: a load that ends is right if no mixture of the bytes written unpickles to something else. Missing because the code disagrees: that every load ends (C103_half_written, C103_removed_twice, C103_killed) and that mixtures cannot be accepted (C103_mixed, C103_wrong)."
  },
  {
   "property": "C104",
   "status": "proved",
   "theorems": [
    "Verif.Props.Pipeline.C104_reading",
    "Verif.Props.Pipeline.C104_coauthors",
    "Verif.Props.Pipeline.C104_coauthors_papers",
    "Verif.Props.Pipeline.C104_ranked",
    "Verif.Props.Pipeline.C104_years",
    "Verif.Props.Pipeline.C104_subjects",
    "Verif.Props.Pipeline.C104_cocitation",
    "Verif.Props.Pipeline.C104_cocitation_lines"
   ],
   "note": "End to end for Web of Science files: C104_reading (every tag, both names), C104_coauthors and C104_coauthors_papers, C104_cocitation (node types full and original, all options but coreOnly) and C104_cocitation_lines, C104_subjects, C104_ranked, C104_years. Assumed of a file: tags of two characters, each once per paper, an accession number, different ones, no tag j9 in small letters. Of the options of networkCoAuthor, dropNonJournals, detailedInfo and citeProfile are not in this composition (C15 has them)."
  },
  {
   "property": "C105",
   "status": "partial",
   "theorems": [
    "Verif.Props.RecordMapping.C105_iteration",
    "Verif.Props.RecordMapping.C105_items",
    "Verif.Props.RecordMapping.C105_listing",
    "Verif.Props.RecordMapping.C105_pairs",
    "Verif.Props.RecordMapping.C105_contains_partial",
    "Verif.Props.RecordMapping.C105_contains_wrong",
    "Verif.Props.RecordMapping.C105_hidden",
    "Verif.Props.RecordMapping.C105_long_names",
    "Verif.Props.RecordMapping.C105_texts"
   ],
   "note": "C105_iteration (any interleaving), C105_items, C105_listing, C105_texts; C105_long_names: long names are in the record and in items() but not listed. The law of membership is false: C105_contains_wrong, C105_hidden; C105_contains_partial proves it for records no field of which raises KeyError when processed."
  },
  {
   "property": "C106",
   "status": "partial",
   "theorems": [
    "Verif.Props.J9Files.C106_addresses",
    "Verif.Props.J9Files.C106_saved",
    "Verif.Props.J9Files.C106_workdir_wrong",
    "Verif.Props.J9Files.C106_workdir_partial",
    "Verif.Props.J9Files.C106_interrupted",
    "Verif.Props.J9Files.C106_database",
    "Verif.Props.J9Files.C106_unreachable",
    "Verif.Props.J9Files.C106_unreadable_wrong",
    "Verif.Props.J9Files.C106_relative_wrong",
    "Verif.Props.J9Files.C106_missing_default",
    "Verif.Props.J9Files.C106_named_wrong",
    "Verif.Props.J9Files.C106_named_forever",
    "Verif.Props.J9Files.C106_lookup",
    "Verif.Props.J9Files.C106_missing_manual"
   ],
   "note": "the database, the saved pages, the failures and the missing default database are proved as stated; partial because the code changes the working directory, empties a saved page when its download fails, raises IndexError for an unreadable page and never returns for a missing database of another name (proved). Contents of pages: C60; contents of databases after a history: C44"
  },
  {
   "property": "C107",
   "status": "partial",
   "theorems": [
    "Verif.Props.GenderData.C107_sessions_partial",
    "Verif.Props.GenderData.C107_answered",
    "Verif.Props.GenderData.C107_sticks",
    "Verif.Props.GenderData.C107_uk_wrong",
    "Verif.Props.GenderData.C107_uk_stays",
    "Verif.Props.GenderData.C107_cut_wrong",
    "Verif.Props.GenderData.C107_empty_wrong"
   ],
   "note": "Proved for histories in which no download breaks off inside the file and the British table is never asked for; the code violates the rest, and that is proved in general."
  },
  {
   "property": "C108",
   "status": "proved",
   "theorems": [
    "Verif.Props.MedlineOwned.C108_addresses",
    "Verif.Props.MedlinePipeline.C108_reading",
    "Verif.Props.MedlinePipeline.C108_coauthors",
    "Verif.Props.MedlinePipeline.C108_coauthors_papers",
    "Verif.Props.MedlinePipeline.C108_ranked",
    "Verif.Props.MedlinePipeline.C108_years",
    "Verif.Props.MedlinePipeline.C108_terms"
   ],
   "note": "From the text of a file, written down in Spec/MedlinePipeline, to co-author networks, one-mode networks and ranked tables; C108_addresses gives what the records hold under AD and AUID. Tags of which only the first value counts, affiliations (AD, AUID) and grants are left out of the ranked tables, except DP through 'year'."
  },
  {
   "property": "C109",
   "status": "proved",
   "theorems": [
    "Verif.Props.ScopusPipeline.C109_reading",
    "Verif.Props.ScopusPipeline.C109_coauthors",
    "Verif.Props.ScopusPipeline.C109_coauthors_papers",
    "Verif.Props.ScopusPipeline.C109_ranked",
    "Verif.Props.ScopusPipeline.C109_years",
    "Verif.Props.ScopusPipeline.C109_terms",
    "Verif.Props.ScopusPipeline.C109_cocitation",
    "Verif.Props.ScopusPipeline.C109_cocitation_entries"
   ],
   "note": "Texts are the same under the codecs of the detectors. A cell in quotes has its quotes doubled and starts recognisably when it has a comma (the reader needs this, C70)."
  },
  {
   "property": "C110",
   "status": "partial",
   "theorems": [
    "Verif.Props.ScopusPipeline.C110_rewritten",
    "Verif.Props.ScopusPipeline.C110_reread_partial",
    "Verif.Props.ScopusPipeline.C110_reread_wrong",
    "Verif.Props.ScopusPipeline.C110_reread_years_wrong"
   ],
   "note": "The claim fails for empty cells: they come back as empty texts (C110_reread_wrong, C110_reread_years_wrong). Proved: what is written, the edges, and the nodes with a name; all nodes when every paper has something in the column."
  },
  {
   "property": "C111",
   "status": "partial",
   "theorems": [
    "Verif.Props.ProQuestPipeline.C111_reading",
    "Verif.Props.ProQuestPipeline.C111_ranked",
    "Verif.Props.ProQuestPipeline.C111_terms",
    "Verif.Props.ProQuestPipeline.C111_two",
    "Verif.Props.ProQuestPipeline.C111_coauthors_wrong",
    "Verif.Props.ProQuestPipeline.C111_coauthors_short_wrong"
   ],
   "note": "Reading, rankings, one-mode and two-mode networks are proved as stated. The co-author part is false of the code: C111_coauthors_wrong and C111_coauthors_short_wrong prove that the nodes are letters, for every file."
  },
  {
   "property": "C112",
   "status": "partial",
   "theorems": [
    "Verif.Props.MergeNetworks.C112_multi_level",
    "Verif.Props.MergeNetworks.C112_chunk",
    "Verif.Props.MergeNetworks.C112_coinvestigators",
    "Verif.Props.MergeNetworks.C112_coauthors",
    "Verif.Props.MergeNetworks.C112_cocitations",
    "Verif.Props.MergeNetworks.C112_two_mode_partial",
    "Verif.Props.MergeNetworks.C112_multi_mode_partial",
    "Verif.Props.MergeNetworks.C112_citation_partial",
    "Verif.Props.MergeNetworks.C112_two_mode_counts_wrong",
    "Verif.Props.MergeNetworks.C112_multi_mode_counts_wrong",
    "Verif.Props.MergeNetworks.C112_citation_counts_wrong",
    "Verif.Props.MergeNetworks.C112_core_wrong",
    "Verif.Props.MergeNetworks.C112_coupling_wrong",
    "Verif.Props.MergeNetworks.C112_info_overwritten"
   ],
   "note": "Proved in full for networkMultiLevel, networkOneMode, networkCoAuthor, networkCoInvestigator and networkCoCitation without coreOnly (attributes other than counts: with counting, or when there are none); nodes, edges and weights for networkTwoMode, networkMultiMode and networkCitation (_partial). The rest is false of the code and proved so. The edge attribute yearDiff is not in this model."
  },
  {
   "property": "C113",
   "status": "proved",
   "theorems": [
    "Verif.Props.PipelineSaved.C113_rewritten",
    "Verif.Props.PipelineSaved.C113_saved",
    "Verif.Props.PipelineSaved.C113_records",
    "Verif.Props.PipelineSaved.C113_one_mode",
    "Verif.Props.PipelineSaved.C113_coauthors",
    "Verif.Props.PipelineSaved.C113_ranked",
    "Verif.Props.PipelineSaved.C113_cocitation"
   ],
   "note": "Any number of savings. Files with a byte order mark are covered (C104 was widened to them). A collection without records cannot be written (C30)."
  },
  {
   "property": "C114",
   "status": "partial",
   "theorems": [
    "Verif.Props.MedlineOwned.C114_addresses_kept",
    "Verif.Props.MedlineOwned.C114_records_kept",
    "Verif.Props.MedlineSaved.C114_rewritten_partial",
    "Verif.Props.MedlineSaved.C114_saved_partial",
    "Verif.Props.MedlineSaved.C114_coauthors",
    "Verif.Props.MedlineSaved.C114_terms",
    "Verif.Props.MedlineSaved.C114_ranked",
    "Verif.Props.MedlineSaved.C114_years",
    "Verif.Props.MedlineSaved.C114_addresses_double"
   ],
   "note": "Everything but the addresses and identifiers of authors is kept, for any number of savings. These are kept, with their authors, where no author of a paper is listed twice and none stands before the first author (C114_addresses_kept, C114_records_kept). Missing: they are not kept when an author is listed twice (C114_addresses_double proves that they double each time)."
  },
  {
   "property": "C115",
   "status": "proved",
   "theorems": [
    "Verif.Props.ScopusSaved.C115_saved",
    "Verif.Props.ScopusSaved.C115_records",
    "Verif.Props.ScopusSaved.C115_one_mode",
    "Verif.Props.ScopusSaved.C115_ranked",
    "Verif.Props.ScopusSaved.C115_terms",
    "Verif.Props.ScopusSaved.C115_coauthors"
   ],
   "note": "Proved for lists of any length of savings. The node without a name is the disagreement of C110; C115_terms and C115_coauthors say exactly how it counts."
  },
  {
   "property": "C116",
   "status": "partial",
   "theorems": [
    "Verif.Props.DocsFront.C116_front",
    "Verif.Props.DocsFront.C116_headings",
    "Verif.Props.DocsGen.C116_ends",
    "Verif.Props.DocsGen.C116_single_ends",
    "Verif.Props.DocsGen.C116_pages",
    "Verif.Props.DocsGen.C116_functions",
    "Verif.Props.DocsGen.C116_modules",
    "Verif.Props.DocsGen.C116_classes",
    "Verif.Props.DocsGen.C116_order_partial",
    "Verif.Props.DocsGen.C116_order_wrong",
    "Verif.Props.DocsGen.C116_single",
    "Verif.Props.DocsGen.C116_single_links_wrong",
    "Verif.Props.DocsGen.C116_single_anchor_wrong",
    "Verif.Props.DocsSingle.C116_single_lists"
   ],
   "note": "Partial because the code disagrees: lines are compared as texts, the single file keeps links to the site and repeats anchors (proved). What inspect reports is the input of the model."
  },
  {
   "property": "C117",
   "status": "partial",
   "theorems": [
    "Verif.Props.DocsGen.C117_doc",
    "Verif.Props.DocsGen.C117_joined_wrong",
    "Verif.Props.DocsGen.C117_quote_wrong",
    "Verif.Props.DocsGen.C117_args",
    "Verif.Props.DocsGen.C117_self_wrong"
   ],
   "note": "Partial because the code disagrees for links without a blank between them, for an empty quoted line and for arguments with self in their name (proved)."
  },
  {
   "property": "C118",
   "status": "proved",
   "theorems": [
    "Verif.Props.WhoCites.C118_citation",
    "Verif.Props.WhoCites.C118_links",
    "Verif.Props.WhoCites.C118_found",
    "Verif.Props.WhoCites.C118_coupling",
    "Verif.Props.WhoCites.C118_core"
   ],
   "note": "The file is as in C104. Papers have an author of two characters or more not beginning with a digit, a year of four digits and no comma in the journal; without these the own citation of a record is read otherwise (C37). Equality of labels is equality of author, year and journal as the code writes them; other papers with the same label are the same node (disagreement of C37)."
  },
  {
   "property": "C119",
   "status": "partial",
   "theorems": [
    "Verif.Props.ScopusWhoCites.C119_citation",
    "Verif.Props.ScopusWhoCites.C119_links",
    "Verif.Props.ScopusWhoCites.C119_found_partial",
    "Verif.Props.ScopusWhoCites.C119_core",
    "Verif.Props.ScopusWhoCites.C119_coupling",
    "Verif.Props.ScopusWhoCites.C119_not_found"
   ],
   "note": "Networks of citations, coupling and co-citation of any Scopus file, exactly, with each reference under what it is read as (C119_citation, C119_links, C119_coupling, C119_core). That a reference to a paper of the file is recognised holds only for entries with the author as in the column Authors, without a comma (C119_found_partial); for entries as Scopus writes them it is false for every file (C119_not_found)."
  },
  {
   "property": "C120",
   "status": "proved",
   "theorems": [
    "Verif.Props.LocalCites.C120_citing",
    "Verif.Props.LocalCites.C120_stats",
    "Verif.Props.LocalCites.C120_years",
    "Verif.Props.LocalCites.C120_diffusion"
   ],
   "note": "All of the statement. Citations are the same when the hashes of their names are equal, as in the code; the theorems hold for every hash. C120_diffusion assumes that no two papers of the source have equal hashes of a way to cite them (otherwise the code credits the last one, see C45)."
  },
  {
   "property": "C121",
   "status": "proved",
   "theorems": [
    "Verif.Props.Derived.C121_like_file",
    "Verif.Props.Derived.C121_papers",
    "Verif.Props.Derived.C121_missing",
    "Verif.Props.Derived.C121_coauthors",
    "Verif.Props.Derived.C121_windows"
   ],
   "note": "All of the statement. Records are compared by their number and fields, where the code compares hashes of numbers; the hypothesis that the same number means the same paper in all files makes them agree, hash collisions aside."
  },
  {
   "property": "C122",
   "status": "proved",
   "theorems": [
    "Verif.Props.FileTables.C122_two_mode",
    "Verif.Props.FileTables.C122_two_mode_papers",
    "Verif.Props.FileTables.C122_cooccurrence",
    "Verif.Props.FileTables.C122_time_series",
    "Verif.Props.FileTables.C122_rpys"
   ],
   "note": "Two-mode networks between any two list tags, time series and co-occurrence counts of any such tag, and the whole RPYS table, all told in terms of the papers printed in the file."
  },
  {
   "property": "C123",
   "status": "partial",
   "theorems": [
    "Verif.Props.ScopusEntry.C123_read",
    "Verif.Props.ScopusEntry.C123_places",
    "Verif.Props.ScopusEntry.C123_same",
    "Verif.Props.ScopusEntry.C123_parenthesis",
    "Verif.Props.ScopusEntry.C123_first_year"
   ],
   "note": "Proved for references whose title has no parenthesis (C123_read, C123_places, C123_same). With a parenthesis in the title the claim fails: C123_parenthesis (nothing is read), C123_first_year (wrong year and journal)."
  },
  {
   "property": "C124",
   "status": "proved",
   "theorems": [
    "Verif.Props.OtherTables.C124_medline_two_mode",
    "Verif.Props.OtherTables.C124_medline_cooccurrence",
    "Verif.Props.OtherTables.C124_medline_time_series",
    "Verif.Props.OtherTables.C124_scopus_two_mode",
    "Verif.Props.OtherTables.C124_scopus_cooccurrence",
    "Verif.Props.OtherTables.C124_scopus_time_series",
    "Verif.Props.OtherTables.C124_scopus_rpys",
    "Verif.Props.OtherTables.C124_proquest_cooccurrence"
   ],
   "note": "Two-mode networks, co-occurrence counts and time series of Medline and Scopus files and co-occurrence counts of ProQuest files as the papers say; the RPYS table of a Scopus file with references as in C123, where those with a parenthesis in the title are left out as by the code."
  },
  {
   "property": "C125",
   "status": "proved",
   "theorems": [
    "Verif.Props.FileExports.C125_burst",
    "Verif.Props.FileExports.C125_csv",
    "Verif.Props.FileExports.C125_split"
   ],
   "note": "Citations are shown by their line, as with FAST_CITES off. genderCounts is off in the csv theorems, and forBurst has removeWhitespace on and no dropList."
  },
  {
   "property": "C126",
   "status": "proved",
   "theorems": [
    "Verif.Props.NetworkFiles.C126_coauthors",
    "Verif.Props.NetworkFiles.C126_coauthors_papers",
    "Verif.Props.NetworkFiles.C126_two_mode",
    "Verif.Props.NetworkFiles.C126_bounds_after_reading"
   ],
   "note": "Full statement, from the bytes of a Web of Science file to the graph read back; files in other formats and citation networks are not covered here."
  },
  {
   "property": "C127",
   "status": "proved",
   "theorems": [
    "Verif.Props.FileFrames.C127_frame",
    "Verif.Props.FileFrames.C127_all",
    "Verif.Props.FileFrames.C127_nlp",
    "Verif.Props.FileFrames.C127_copyright"
   ],
   "note": "What the lines of a tag mean is in Spec/WosMeaning.Means, for every tag of Web of Science (keywords, journals, months, counts, addresses included). C127_all is about files whose tags are all tags of Web of Science. The counts of genders are left open. Writing the table of forNLP to a file is not covered."
  },
  {
   "property": "C128",
   "status": "proved",
   "theorems": [
    "Verif.Props.FileBib.C128_plain",
    "Verif.Props.FileBib.C128_wos"
   ],
   "note": "reducedOutput = True is not covered. Values longer than the limit are cut (C35), so the plain style is for values within it. That nice keys can be the same for different papers is C65."
  },
  {
   "property": "C129",
   "status": "partial",
   "theorems": [
    "Verif.Props.MedlineFrames.C129_frame",
    "Verif.Props.MedlineFrames.C129_all_partial",
    "Verif.Props.MedlineFrames.C129_lost",
    "Verif.Props.MedlineFrames.C129_long_names"
   ],
   "note": "C129_frame is the whole table for chosen names, by tag or long name, with the translation the code makes. Missing: the common names and longNames, where the code departs from the documentation (C129_lost, C129_long_names), and the tags AD and AUID, whose values belong to authors. C129_all_partial is about all columns without a choice; it leaves out files with AD or AUID."
  },
  {
   "property": "C130",
   "status": "partial",
   "theorems": [
    "Verif.Props.ScopusFrames.C130_nlp_partial",
    "Verif.Props.ScopusFrames.C130_abstract_lost"
   ],
   "note": "C130_nlp_partial is the whole table except the abstracts, which the code leaves empty for every Scopus file (C130_abstract_lost). Extra columns and the output file are left out."
  },
  {
   "property": "C131",
   "status": "partial",
   "theorems": [
    "Verif.Props.ScopusDict.C131_all",
    "Verif.Props.ScopusDict.C131_chosen_partial",
    "Verif.Props.ScopusDict.C131_lost",
    "Verif.Props.ScopusDict.C131_long_names"
   ],
   "note": "Without a choice of tags the table is proved in full (C131_all). For chosen columns the claim holds except for DOI, ISBN and ISSN (C131_chosen_partial); for these and for the names common to all records the code gives an empty column under another name (C131_lost). With longNames and no choice the code raises KeyError (C131_long_names)."
  }
 ]
}