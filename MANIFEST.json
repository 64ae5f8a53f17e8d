{
 "claims": [
  {
   "property": "C01",
   "status": "proved",
   "theorems": [
    "Comps.Props.C01_read_after_write"
   ],
   "note": "Proved on every dictionary reachable by the API, any char order, any values."
  },
  {
   "property": "C02",
   "status": "partial",
   "theorems": [
    "Comps.Props.C02_false",
    "Comps.Props.C02_frame_partial",
    "Comps.Props.C02_frame_copy_partial",
    "Comps.Props.C02_effect"
   ],
   "note": "False of the code (C02_false: write ab, c, a loses c). C02_effect: what a write does to every other key, in every reachable state (nothing, or it loses exactly the keys below some proper prefix of the key that do not extend the key). Proved as stated when the key is no proper prefix of an earlier written key, and on fresh copies."
  },
  {
   "property": "C03",
   "status": "partial",
   "theorems": [
    "Comps.Props.C03_false",
    "Comps.Props.C03_finite_map_partial",
    "Comps.Props.C03_prefix_free_partial",
    "Comps.Props.C03_sound"
   ],
   "note": "False of the code (C03_false). C03_sound: after every history of writes, removals and clearings a read gives NULL or the value last written. Proved as stated for histories in which no key is a proper prefix of an earlier key, hence for all histories over prefix-free keys."
  },
  {
   "property": "C04",
   "status": "proved",
   "theorems": [
    "Comps.Props.C04_listings"
   ],
   "note": "Proved on every reachable dictionary."
  },
  {
   "property": "C05",
   "status": "partial",
   "theorems": [
    "Comps.Props.C05_false_descendant",
    "Comps.Props.C05_false_fault",
    "Comps.Props.C05_removed_partial",
    "Comps.Props.C05_frame_copy_partial",
    "Comps.Props.C05_exact_partial",
    "Comps.Props.C05_effect_partial"
   ],
   "note": "False of the code (C05_false_descendant, C05_false_fault). Proved: removed key reads NULL, and either nothing else changes or exactly the longer keys go too (C05_effect_partial); frame on fresh copies; exactness when no other key shares the first byte."
  },
  {
   "property": "C06",
   "status": "partial",
   "theorems": [
    "Comps.Props.C06_false",
    "Comps.Props.C06_copies_partial"
   ],
   "note": "False for the count of a copy (C06_false). Lookups and listings proved."
  },
  {
   "property": "C07",
   "status": "partial",
   "theorems": [
    "Comps.Props.C07_false_unset",
    "Comps.Props.C07_false_set",
    "Comps.Props.C07_len_partial"
   ],
   "note": "False of the code (C07_false_unset, C07_false_set). Proved for non-NULL write histories without prefix inversions."
  },
  {
   "property": "C08",
   "status": "proved",
   "theorems": [
    "Comps.Props.C08_union"
   ],
   "note": "Union proved in full for dictionaries built through the API (operands are values in the model, union works on a clone of the first)."
  },
  {
   "property": "C09",
   "status": "proved",
   "theorems": [
    "Comps.Props.C09_cmp"
   ],
   "note": "Proved for every value comparison on reachable dictionaries."
  },
  {
   "property": "C10",
   "status": "partial",
   "theorems": [
    "Comps.Props.C10_false",
    "Comps.Props.C10_objects_partial",
    "Comps.Props.C10_write_partial",
    "Comps.Props.C10_wrote_partial",
    "Comps.Props.C10_exact_partial"
   ],
   "note": "False of the code (C10_false: a split wraps the old list as an element, and makes a key nobody wrote). Proved: objects in order for every history; exact reads for nested histories. C10_wrote_partial gives the exact effect of one write in every reachable state (which list is wrapped, which key appears)."
  },
  {
   "property": "C11",
   "status": "partial",
   "theorems": [
    "Comps.Props.C11_false",
    "Comps.Props.C11_keys_partial"
   ],
   "note": "False of the code for every reflexive value comparison (C11_false). Proved: equal exactly if the key sets are equal."
  },
  {
   "property": "C12",
   "status": "partial",
   "theorems": [
    "Comps.Props.C12_false_prepend",
    "Comps.Props.C12_false_insertAt",
    "Comps.Props.C12_false_pop",
    "Comps.Props.C12_sequence_partial",
    "Comps.Props.C12_whole_list_partial"
   ],
   "note": "False (three witnesses: element lost, use after free, NULL dereference). Proved at pointer level for every history without prepend-to-empty and insert-at-end."
  },
  {
   "property": "C13",
   "status": "proved",
   "theorems": [
    "Comps.Props.C13_edits"
   ],
   "note": "Proved at pointer level for every history over any number of lists sharing a heap (append, insert, remove, set, clear, copy, concat, concat_in of different lists, filter)."
  },
  {
   "property": "C14",
   "status": "partial",
   "theorems": [
    "Comps.Props.C14_false_end",
    "Comps.Props.C14_false_step",
    "Comps.Props.C14_slice_partial",
    "Comps.Props.C14_inner_partial",
    "Comps.Props.C14_iterators"
   ],
   "note": "False (C14_false_end, C14_false_step). Indexed slice characterised exactly on all reachable lists; iterator slice proved in full."
  },
  {
   "property": "C15",
   "status": "proved",
   "theorems": [
    "Comps.Props.C15_cmp"
   ],
   "note": "Proved for every element comparison on all reachable lists."
  },
  {
   "property": "C16",
   "status": "proved",
   "theorems": [
    "Comps.Props.C16_unique",
    "Comps.Props.C16_add",
    "Comps.Props.C16_lookup",
    "Comps.Props.C16_remove",
    "Comps.Props.C16_removed_absent"
   ],
   "note": "Proved for every equality function and every history."
  },
  {
   "property": "C17",
   "status": "partial",
   "theorems": [
    "Comps.Props.C17_false",
    "Comps.Props.C17_classify_partial",
    "Comps.Props.C17_superset_partial"
   ],
   "note": "False: proper supersets may be reported as unrelated (C17_false). Everything else proved, and the exact condition for result 1."
  },
  {
   "property": "C18",
   "status": "proved",
   "theorems": [
    "Comps.Props.C18_unique_firsts",
    "Comps.Props.C18_unique_spec"
   ],
   "note": "Proved for every list."
  },
  {
   "property": "C19",
   "status": "proved",
   "theorems": [
    "Comps.Props.C19_counts",
    "Comps.Props.C19_access",
    "Comps.Props.C19_releases",
    "Comps.Props.C19_no_leak",
    "Comps.Props.C19_cycle_leaks"
   ],
   "note": "Proved for every program over creations, retains, releases and list calls that only uses references it owns: no fault, alive iff referenced, destructor once; exact release counts; no leak without ownership cycles (C19_cycle_leaks shows the hypothesis is needed)."
  },
  {
   "property": "C20",
   "status": "partial",
   "theorems": [
    "Comps.Props.C20_names",
    "Comps.Props.C20_false",
    "Comps.Props.C20_entries_partial",
    "Comps.Props.C20_properties"
   ],
   "note": "Names: every pair of groups. Entry positions: partial, first operand without repeated names (C20_false shows why). Properties and translations: every pair of reachable groups."
  },
  {
   "property": "C21",
   "status": "partial",
   "theorems": [
    "Comps.Props.C21_packages_partial",
    "Comps.Props.C21_false",
    "Comps.Props.C21_properties",
    "Comps.Props.C21_translations_false"
   ],
   "note": "Packages: partial, both package lists not NULL (C21_false: NULL list is dereferenced). Properties: in full. Translations: dropped by the code (C21_translations_false)."
  },
  {
   "property": "C22",
   "status": "partial",
   "theorems": [
    "Comps.Props.C22_union_names",
    "Comps.Props.C22_union_names_env",
    "Comps.Props.C22_false",
    "Comps.Props.C22_union_partial",
    "Comps.Props.C22_union_env_partial",
    "Comps.Props.C22_intersect_partial",
    "Comps.Props.C22_intersect_env_partial",
    "Comps.Props.C22_null_false",
    "Comps.Props.C22_properties",
    "Comps.Props.C22_intersect_properties"
   ],
   "note": "Names of unions in full; uniqueness and winning entries partial (operands without repeated ids, C22_false); intersections partial (lists not NULL, C22_null_false)."
  },
  {
   "property": "C23",
   "status": "partial",
   "theorems": [
    "Comps.Props.C23_ids",
    "Comps.Props.C23_entries_partial",
    "Comps.Props.C23_false_encoding",
    "Comps.Props.C23_false_repeated"
   ],
   "note": "Ids in full for documents with an encoding; entries partial (no id twice in an operand, C23_false_repeated). False without encoding (C23_false_encoding)."
  },
  {
   "property": "C24",
   "status": "partial",
   "theorems": [
    "Comps.Props.C24_partial",
    "Comps.Props.C24_false_encoding",
    "Comps.Props.C24_false_null"
   ],
   "note": "Partial: first document has an encoding and no entry has a NULL list; otherwise NULL is read (C24_false_encoding, C24_false_null)."
  },
  {
   "property": "C25",
   "status": "partial",
   "theorems": [
    "Comps.Props.C25_doc_partial",
    "Comps.Props.C25_doc_false_encoding",
    "Comps.Props.C25_doc_false",
    "Comps.Props.C25_doc_idempotent",
    "Comps.Props.C25_false",
    "Comps.Props.C25_group_partial",
    "Comps.Props.C25_category_partial",
    "Comps.Props.C25_env_partial",
    "Comps.Props.C25_null_false",
    "Comps.Props.C25_idempotent"
   ],
   "note": "Groups, categories, environments, documents: partial (no empty non-NULL arch list, lists not NULL, document has an encoding); idempotence in full."
  },
  {
   "property": "C26",
   "status": "partial",
   "theorems": [
    "Comps.Props.C26_categories_partial",
    "Comps.Props.C26_environments_partial",
    "Comps.Props.C26_groups_what",
    "Comps.Props.C26_groups_partial",
    "Comps.Props.C26_false",
    "Comps.Props.C26_false_null",
    "Comps.Props.C26_packages"
   ],
   "note": "Packages in full. Categories and environments partial (no string object without text); groups partial (no language or no description), exact result in C26_groups_what, C26_false otherwise."
  },
  {
   "property": "C27",
   "status": "partial",
   "theorems": [
    "Comps.Props.C27_partial",
    "Comps.Props.C27_nested",
    "Comps.Props.C27_counted",
    "Comps.Props.C27_false"
   ],
   "note": "False of the code when a writer call fails inside a package or group id. Partial: with a writer that never fails, the calls are exactly those of the tree the document stands for (C27_nested: properly nested). Needs right dictionary counters (C27_counted)."
  },
  {
   "property": "C28",
   "status": "partial",
   "theorems": [
    "Comps.Props.C28_partial",
    "Comps.Props.C28_false_type",
    "Comps.Props.C28_false_newline",
    "Comps.Props.C28_false_empty",
    "Comps.Props.C28_false_flags",
    "Comps.Props.C28_false_basearchonly",
    "Comps.Props.C28_false_blacklist"
   ],
   "note": "Writing any document reached through the API, to a file or a string, and parsing what arrives gives the same content, document type and, with the same encoding, a document that compares equal; no message when all entries are named and no empty list is written. Conditions are listed in Spec.RoundTrips; six witnesses show what is lost outside of them (package type unknown, newlines, empty texts, flags never set, basearchonly 0, black list names with a common prefix). What libxml2 and expat do in between is the assumption Transmits; it is shown to be satisfiable for every such document."
  },
  {
   "property": "C29",
   "status": "partial",
   "theorems": [
    "Comps.Props.C29_partial",
    "Comps.Props.C29_false_text",
    "Comps.Props.C29_false_order",
    "Comps.Props.C29_false_nested",
    "Comps.Props.C29_false_match",
    "Comps.Props.C29_false_table"
   ],
   "note": "Any tree of elements with any attributes, stopped anywhere, is read without a fault under FileSafe; five kinds of files that do fault (empty flags, empty or too large display order, nested comps, dictionary entries without key, attribute tables without end)."
  },
  {
   "property": "C30",
   "status": "partial",
   "theorems": [
    "Comps.Props.C30_partial",
    "Comps.Props.C30_false"
   ],
   "note": "Exact result code of comps_parse_file for any parser state and any errors, and of comps_parse_str on a new parser; false for comps_parse_str after an earlier failure (parser not reset). Read errors of fread look like the end of the file and are not in the model."
  },
  {
   "property": "C31",
   "status": "partial",
   "theorems": [
    "Comps.Props.C31_partial",
    "Comps.Props.C31_false",
    "Comps.Props.C31_false_text"
   ],
   "note": "Any reachable parser state, any misplaced subtree without comps: document and stack unchanged, message 16, and the rest of the run is the same if no text is pending. False for comps inside, and for text before the misplaced element."
  },
  {
   "property": "C32",
   "status": "partial",
   "theorems": [
    "Comps.Props.C32_partial",
    "Comps.Props.C32_false"
   ],
   "note": "Any recutting of text where white-space pieces do not count; false for a white-space piece inside a text."
  },
  {
   "property": "C33",
   "status": "partial",
   "theorems": [
    "Comps.Props.C33_partial",
    "Comps.Props.C33_present",
    "Comps.Props.C33_broken",
    "Comps.Props.C33_false"
   ],
   "note": "Every group of a document read from any complete file has its flags, each 0 or 1 (C33_present); of any input all groups but the last (C33_broken). That they are the last valid value or the default: for the files C29_partial covers (C33_partial); false for a document inside a group (C33_false)."
  },
  {
   "property": "C34",
   "status": "proved",
   "theorems": [
    "Comps.Props.C34_execute",
    "Comps.Props.C34_fault",
    "Comps.Props.C34_empty_check",
    "Comps.Props.C34_list"
   ],
   "note": "For every object and rule table whose checks do not fault; a faulting check makes the validation fault (C34_fault). C34_list: member lists of a document."
  },
  {
   "property": "C35",
   "status": "partial",
   "theorems": [
    "Comps.Props.C35_ok_iff",
    "Comps.Props.C35_safe",
    "Comps.Props.C35_messages_partial",
    "Comps.Props.C35_false"
   ],
   "note": "Exact for every comparison (OK iff no repeat) and every equivalence (messages). False for repeated elements at positions of ten digits or more: the message overflows its buffer by one or two bytes (C35_false); C35_messages_partial gives the exact condition."
  },
  {
   "property": "C36",
   "status": "proved",
   "theorems": [
    "Comps.Props.C36_round_trip",
    "Comps.Props.C36_unknown"
   ],
   "note": "Both writer functions; every string."
  },
  {
   "property": "C37",
   "status": "proved",
   "theorems": [
    "Comps.Props.C37_round_trip",
    "Comps.Props.C37_read_names"
   ],
   "note": "Exact: the list survives iff every name is non-empty and separator free. strtok modelled as maximal runs."
  },
  {
   "property": "C38",
   "status": "proved",
   "theorems": [
    "Comps.Props.C38_exact_fit",
    "Comps.Props.C38_calls"
   ],
   "note": "Every code with a message; formats contain only %s. All calls in the library listed and checked (C38_calls)."
  },
  {
   "property": "C39",
   "status": "proved",
   "theorems": [
    "Comps.Props.C39_name_of_type",
    "Comps.Props.C39_type_of_name",
    "Comps.Props.C39_unknown"
   ],
   "note": "Both directions and the exact set of unknown names."
  },
  {
   "property": "C40",
   "status": "partial",
   "theorems": [
    "Comps.Props.C40_name_partial",
    "Comps.Props.C40_false",
    "Comps.Props.C40_false_witness"
   ],
   "note": "False of the code for the system and public id setters (they replace the name); the name setter is proved."
  },
  {
   "property": "C41",
   "status": "partial",
   "theorems": [
    "Comps.Props.C41_doc_meaning",
    "Comps.Props.C41_doc",
    "Comps.Props.C41_doc_copy_partial",
    "Comps.Props.C41_doc_copy_false",
    "Comps.Props.C41_packages",
    "Comps.Props.C41_package_meaning",
    "Comps.Props.C41_groupid_meaning",
    "Comps.Props.C41_group_meaning",
    "Comps.Props.C41_category_meaning",
    "Comps.Props.C41_env_meaning",
    "Comps.Props.C41_group",
    "Comps.Props.C41_category",
    "Comps.Props.C41_env",
    "Comps.Props.C41_no_type_confusion"
   ],
   "note": "Packages, group ids, groups, categories, environments, documents reachable through the API; copies of documents partial (copying may fault, C55; C41_doc_copy_false)."
  },
  {
   "property": "C42",
   "status": "partial",
   "theorems": [
    "Comps.Props.C42_what",
    "Comps.Props.C42_partial",
    "Comps.Props.C42_false"
   ],
   "note": "False of the code: no copy is ever written with language packs (C42_what). Partial: documents without language packs."
  },
  {
   "property": "C43",
   "status": "proved",
   "theorems": [
    "Comps.Props.C43_record",
    "Comps.Props.C43_frame",
    "Comps.Props.C43_null_string"
   ],
   "note": "All sequences of setter calls; plus the frame law on every reachable object. String setters given NULL do nothing (C43_null_string), which the specification of 'last value' follows."
  },
  {
   "property": "C44",
   "status": "proved",
   "theorems": [
    "Comps.Props.C44_calls",
    "Comps.Props.C44_new",
    "Comps.Props.C44_entries"
   ],
   "note": "Any sequence of getter, setter and add calls on any reachable document."
  },
  {
   "property": "C45",
   "status": "partial",
   "theorems": [
    "Comps.Props.C45_false",
    "Comps.Props.C45_partial",
    "Comps.Props.C45_spec_unique"
   ],
   "note": "False for every negative number (log10 of a negative converted to int); proved for all others with exact buffer size."
  },
  {
   "property": "C46",
   "status": "proved",
   "theorems": [
    "Comps.Props.C46_list"
   ],
   "note": "For the texts of the elements; 7 bytes of the buffer unused."
  },
  {
   "property": "C47",
   "status": "partial",
   "theorems": [
    "Comps.Props.C47_false"
   ],
   "note": "False on every list and position: the function always returns NULL."
  },
  {
   "property": "C48",
   "status": "partial",
   "theorems": [
    "Comps.Props.C48_false_first",
    "Comps.Props.C48_false_second",
    "Comps.Props.C48_insert_before_partial"
   ],
   "note": "False for the first two positions (witnesses). Proved from the third position on."
  },
  {
   "property": "C49",
   "status": "partial",
   "theorems": [
    "Comps.Props.C49_false",
    "Comps.Props.C49_concat_in_partial"
   ],
   "note": "False: the self case never ends (proved for every non-empty list and any number of steps). Proved for two different lists."
  },
  {
   "property": "C50",
   "status": "partial",
   "theorems": [
    "Comps.Props.C50_false_fault",
    "Comps.Props.C50_false_found",
    "Comps.Props.C50_removed_partial",
    "Comps.Props.C50_fault",
    "Comps.Props.C50_left"
   ],
   "note": "False of the code (C50_false_fault, C50_false_found). Proved: when removal returns, the key lists nothing, others are unchanged, count exact. C50_fault: removal faults exactly if the key is present and the only key extending some other key; C50_left: what it leaves, exactly."
  },
  {
   "property": "C51",
   "status": "partial",
   "theorems": [
    "Comps.Props.C51_false",
    "Comps.Props.C51_empty_partial"
   ],
   "note": "False for every non-empty multi-dictionary (C51_false)."
  },
  {
   "property": "C52",
   "status": "partial",
   "theorems": [
    "Comps.Props.C52_false",
    "Comps.Props.C52_empty_partial"
   ],
   "note": "False for every non-empty multi-dictionary (C52_false)."
  },
  {
   "property": "C53",
   "status": "proved",
   "theorems": [
    "Comps.Props.C53_unite"
   ],
   "note": "Proved on all reachable multi-dictionaries."
  },
  {
   "property": "C54",
   "status": "partial",
   "theorems": [
    "Comps.Props.C54_false",
    "Comps.Props.C54_exact_partial"
   ],
   "note": "False of the code (C54_false: use after free). Proved: it faults exactly when the list holds the only reference."
  },
  {
   "property": "C55",
   "status": "partial",
   "theorems": [
    "Comps.Props.C55_false",
    "Comps.Props.C55_false_mdict",
    "Comps.Props.C55_partial"
   ],
   "note": "False of the code: every copy has uninitialised fields, and documents with a black list or whiteout cannot be copied. Partial: documents not made by copying."
  },
  {
   "property": "C56",
   "status": "partial",
   "theorems": [
    "Comps.Props.C56_false",
    "Comps.Props.C56_partial"
   ],
   "note": "False of the code (C56_false). Partial: documents on which nothing was done with language packs."
  },
  {
   "property": "C57",
   "status": "partial",
   "theorems": [
    "Comps.Props.C57_what",
    "Comps.Props.C57_false"
   ],
   "note": "False of the code; C57_what characterises the result."
  },
  {
   "property": "C58",
   "status": "partial",
   "theorems": [
    "Comps.Props.C58_partial",
    "Comps.Props.C58_false_wrap",
    "Comps.Props.C58_false_text"
   ],
   "note": "False of the code: the count wraps at 256, and failures while writing properties are dropped. Partial: no writer failure, fewer than 128 entries left out."
  },
  {
   "property": "C59",
   "status": "proved",
   "theorems": [
    "Comps.Props.C59_parsed"
   ],
   "note": "Complete functional specification of reading a file (readDoc): content, messages, doctype, encoding, result code. The document of the parser is reachable through the API (DocBuilt), so every theorem about documents applies to it."
  },
  {
   "property": "C60",
   "status": "proved",
   "theorems": [
    "Comps.Props.C60_file",
    "Comps.Props.C60_string",
    "Comps.Props.C60_vital"
   ],
   "note": "For every pattern of failing writer calls. The calls whose failure ends the output or is logged are listed in Spec/XmlFail; failures of other calls (texts of properties, end tags of properties, attributes of pairs) are dropped by the code, see C58_false_text and C27_false."
  },
  {
   "property": "C61",
   "status": "partial",
   "theorems": [
    "Comps.Props.C61_partial",
    "Comps.Props.C61_valid",
    "Comps.Props.C61_names",
    "Comps.Props.C61_false"
   ],
   "note": "Complete message list for every document whose entry lists are not NULL and not longer than a thousand million (C35); false with a NULL list, which the check reads (C61_false)."
  },
  {
   "property": "C62",
   "status": "partial",
   "theorems": [
    "Comps.Props.C62_partial",
    "Comps.Props.C62_false"
   ],
   "note": "Indices that fit in an int; seq[2**32] is the first element (C62_false)."
  },
  {
   "property": "C63",
   "status": "partial",
   "theorems": [
    "Comps.Props.C63_del_partial",
    "Comps.Props.C63_set_partial",
    "Comps.Props.C63_gids_partial",
    "Comps.Props.C63_negative",
    "Comps.Props.C63_false_negative",
    "Comps.Props.C63_false_same_id",
    "Comps.Props.C63_false_package"
   ],
   "note": "Indices that are not negative, and x without the id of the element it replaces. Negative indices do nothing and raise nothing; an element cannot be replaced by one of the same id; assignment to a list of packages is undefined behaviour."
  },
  {
   "property": "C64",
   "status": "partial",
   "theorems": [
    "Comps.Props.C64_partial",
    "Comps.Props.C64_false",
    "Comps.Props.C64_false_step"
   ],
   "note": "Positive steps that fit in an int. A negative step repeats one element; a step of 2**31 overflows a counter."
  },
  {
   "property": "C65",
   "status": "partial",
   "theorems": [
    "Comps.Props.C65_partial",
    "Comps.Props.C65_false",
    "Comps.Props.C65_crash",
    "Comps.Props.C65_false_more"
   ],
   "note": "False for every slice that selects something (C65_false, for all lists); undefined behaviour unless only the last element is selected (C65_crash). Partial: slices that select nothing, with bounds that are not negative."
  },
  {
   "property": "C66",
   "status": "partial",
   "theorems": [
    "Comps.Props.C66_partial",
    "Comps.Props.C66_key_error",
    "Comps.Props.C66_false",
    "Comps.Props.C66_false_other"
   ],
   "note": "Step 1, ids of the value new to the list, the slice not empty and not shorter than the value unless it reaches the end, or at the end. Witnesses for the other cases; packages and group ids: undefined behaviour."
  },
  {
   "property": "C67",
   "status": "partial",
   "theorems": [
    "Comps.Props.C67_partial",
    "Comps.Props.C67_effect",
    "Comps.Props.C67_false"
   ],
   "note": "Histories without insert, which does not look for the id; assignments to slices are not among the calls. C67_effect gives the elements for all histories."
  },
  {
   "property": "C68",
   "status": "partial",
   "theorems": [
    "Comps.Props.C68_partial",
    "Comps.Props.C68_other_partial",
    "Comps.Props.C68_strings_partial",
    "Comps.Props.C68_type_error",
    "Comps.Props.C68_false"
   ],
   "note": "Items that are objects; removing a group id by a string always fails (C68_false)."
  },
  {
   "property": "C69",
   "status": "partial",
   "theorems": [
    "Comps.Props.C69_partial",
    "Comps.Props.C69_false"
   ],
   "note": "Lists of packages only if each has a name (NULL is used otherwise)."
  },
  {
   "property": "C70",
   "status": "partial",
   "theorems": [
    "Comps.Props.C70_partial",
    "Comps.Props.C70_false"
   ],
   "note": "Elements taken out in the loop are those just seen; taking out the next element or clearing the list lets the iterator read freed memory."
  },
  {
   "property": "C71",
   "status": "partial",
   "theorems": [
    "Comps.Props.C71_partial",
    "Comps.Props.C71_false"
   ],
   "note": "Histories without assignment, which does not validate."
  },
  {
   "property": "C72",
   "status": "partial",
   "theorems": [
    "Comps.Props.C72_partial",
    "Comps.Props.C72_false",
    "Comps.Props.C72_forgets_partial"
   ],
   "note": "C72_partial: programs in which a key written is there already or is no proper prefix of a key written before, keys and values are text without NUL, and nothing is deleted. C72_forgets_partial: every program of text with any keys follows maps that may forget keys, and says when and which. C72_false: writing a proper prefix loses another key."
  },
  {
   "property": "C73",
   "status": "partial",
   "theorems": [
    "Comps.Props.C73_false",
    "Comps.Props.C73_false_programs"
   ],
   "note": "False for every dictionary and every key: NULL is read."
  },
  {
   "property": "C74",
   "status": "partial",
   "theorems": [
    "Comps.Props.C74_partial",
    "Comps.Props.C74_false",
    "Comps.Props.C74_false_fork"
   ],
   "note": "Dictionaries not made by copy; a copy has length 0 (C74_false, for all states)."
  },
  {
   "property": "C75",
   "status": "partial",
   "theorems": [
    "Comps.Props.C75_partial",
    "Comps.Props.C75_false_values",
    "Comps.Props.C75_false_items",
    "Comps.Props.C75_false_outlives",
    "Comps.Props.C75_false_bytes"
   ],
   "note": "Programs without del, with text and bytes that decode, that do not advance an iterator over values or items after a change. Keys may be proper prefixes of others. Witnesses for the rest."
  },
  {
   "property": "C76",
   "status": "partial",
   "theorems": [
    "Comps.Props.C76_partial",
    "Comps.Props.C76_false",
    "Comps.Props.C76_false_refused",
    "Comps.Props.C76_false_lost"
   ],
   "note": "Permitted programs (as C72) without has_key. C76_false: after has_key answered True, for every continuation some string is never freed."
  },
  {
   "property": "C77",
   "status": "partial",
   "theorems": [
    "Comps.Props.C77_partial",
    "Comps.Props.C77_false"
   ],
   "note": "Iterators over keys in all permitted programs, over values and items until the dictionary changes."
  },
  {
   "property": "C78",
   "status": "partial",
   "theorems": [
    "Comps.Props.C78_partial",
    "Comps.Props.C78_type_errors",
    "Comps.Props.C78_false_none",
    "Comps.Props.C78_false_pending"
   ],
   "note": "Calls on dictionaries only. None as key fails without exception; a string without encoding is stored with the exception pending."
  },
  {
   "property": "C79",
   "status": "partial",
   "theorems": [
    "Comps.Props.C79_partial",
    "Comps.Props.C79_false",
    "Comps.Props.C79_false_other"
   ],
   "note": "Careful programs (as C75) without strings that have no encoding; other operands raise TypeError."
  },
  {
   "property": "C80",
   "status": "partial",
   "theorems": [
    "Comps.Props.C80_partial",
    "Comps.Props.C80_str_partial",
    "Comps.Props.C80_false_empty",
    "Comps.Props.C80_false_nul",
    "Comps.Props.C80_false_bytes"
   ],
   "note": "Non-empty keys, text without NUL that decodes."
  },
  {
   "property": "C81",
   "status": "partial",
   "theorems": [
    "Comps.Props.PyC.C81_partial",
    "Comps.Props.PyC.C81_false"
   ],
   "note": "Programs that call clear() only before attributes of the document are read or assigned. C81_false: after clear() a cached attribute shows the old list for ever."
  },
  {
   "property": "C82",
   "status": "proved",
   "theorems": [
    "Comps.Props.PyC.C82_answers",
    "Comps.Props.PyC.C82_safe"
   ],
   "note": "Refinement to a machine without reference counts and freeing. Faults in an answer can only be those of the C library on the contents (union, comparison and so on), C82_safe."
  },
  {
   "property": "C83",
   "status": "proved",
   "theorems": [
    "Comps.Props.PyC.C83_fromxml_str"
   ],
   "note": "Parser as in C59."
  },
  {
   "property": "C84",
   "status": "partial",
   "theorems": [
    "Comps.Props.PyC.C84_partial",
    "Comps.Props.PyC.C84_false"
   ],
   "note": "A file that is not well-formed raises ParserError and the document is thrown away (C84_false)."
  },
  {
   "property": "C85",
   "status": "partial",
   "theorems": [
    "Comps.Props.PyC.C85_partial",
    "Comps.Props.PyC.C85_false"
   ],
   "note": "fromxml_str that raises leaves the log of the load before (C85_false)."
  },
  {
   "property": "C86",
   "status": "proved",
   "theorems": [
    "Comps.Props.PyC.C86_assign",
    "Comps.Props.PyC.C86_shared",
    "Comps.Props.PyC.C86_types"
   ],
   "note": "All states; TypeError case included."
  },
  {
   "property": "C87",
   "status": "partial",
   "theorems": [
    "Comps.Props.PyC.C87_partial",
    "Comps.Props.PyC.C87_false_del",
    "Comps.Props.PyC.C87_false_eq"
   ],
   "note": "False: del c.attr reads NULL, c == other reads another object as a document, both in every state."
  },
  {
   "property": "C88",
   "status": "proved",
   "theorems": [
    "Comps.Props.PyC.C88_apart"
   ],
   "note": "Programs without attribute assignment."
  },
  {
   "property": "C89",
   "status": "partial",
   "theorems": [
    "Comps.Props.PyC.C89_partial",
    "Comps.Props.PyC.C89_false"
   ],
   "note": "Programs that do not read or assign langpacks, blacklist, whiteout; reading them leaks (C89_false)."
  },
  {
   "property": "C90",
   "status": "proved",
   "theorems": [
    "Comps.Props.PyC.C90_clear"
   ],
   "note": "Contents as seen by the document; cached attributes are C81."
  },
  {
   "property": "C91",
   "status": "proved",
   "theorems": [
    "Comps.Props.PyC.C91_agree"
   ],
   "note": "In every state a program of the model can reach."
  },
  {
   "property": "C92",
   "status": "partial",
   "theorems": [
    "Comps.Props.PyC.C92_partial",
    "Comps.Props.PyC.C92_calls",
    "Comps.Props.PyC.C92_false_type",
    "Comps.Props.PyC.C92_false_defaults"
   ],
   "note": "A package type that is no number is accepted, and the call ends in SystemError after the work (C92_false_type); get_xml_default_options() says True for options that are off (C92_false_defaults)."
  },
  {
   "property": "C93",
   "status": "partial",
   "theorems": [
    "Comps.Props.PyC.C93_partial",
    "Comps.Props.PyC.C93_false",
    "Comps.Props.PyC.C93_messages"
   ],
   "note": "When generating fails the exception is SystemError (C93_false)."
  },
  {
   "property": "C94",
   "status": "proved",
   "theorems": [
    "Comps.Props.PyC.C94_looking",
    "Comps.Props.PyC.C94_xml_f",
    "Comps.Props.PyC.C94_xml_str"
   ],
   "note": "All states."
  },
  {
   "property": "C95",
   "status": "proved",
   "theorems": [
    "Comps.Props.PyC.C95_union",
    "Comps.Props.PyC.C95_arch_filter"
   ],
   "note": "Contents by Doc.union and Doc.archFilter, whose meaning is C37-C40, C57."
  },
  {
   "property": "C96",
   "status": "partial",
   "theorems": [
    "Comps.Props.PyC.C96_program_partial",
    "Comps.Props.PyC.C96_false",
    "Comps.Props.PyC.C96_str_partial",
    "Comps.Props.PyC.C96_file_partial"
   ],
   "note": "For the documents of every program Python can write (C96_program_partial) that meet the conditions of C28, with the encoding UTF-8 and no failing call of the writer; libxml2 and expat as in C28. False: a package made without a type comes back with the type default, and the documents differ (C96_false)."
  },
  {
   "property": "C97",
   "status": "partial",
   "theorems": [
    "Comps.Props.PyC.C97_program_partial",
    "Comps.Props.PyC.C97_partial",
    "Comps.Props.PyC.C97_laws",
    "Comps.Props.PyC.C97_false"
   ],
   "note": "Exact meaning of == and that it is an equivalence, for all documents of every program Python can write (C97_program_partial). Values of black list and whiteout are not compared (C97_false)."
  },
  {
   "property": "C98",
   "status": "partial",
   "theorems": [
    "Comps.Props.PyElem.C98_partial",
    "Comps.Props.PyElem.C98_false",
    "Comps.Props.PyElem.C98_false_del"
   ],
   "note": "None does nothing for strings (C98_false), del of display_order crashes (C98_false_del); strings with NUL and numbers beyond int are outside the partial theorem."
  },
  {
   "property": "C99",
   "status": "partial",
   "theorems": [
    "Comps.Props.PyElem.C99_partial",
    "Comps.Props.PyElem.C99_del",
    "Comps.Props.PyElem.C99_false"
   ],
   "note": "Numbers beyond long: the exception comes after -1 was stored (C99_false). C99_del: deletion is refused or crashes."
  },
  {
   "property": "C100",
   "status": "partial",
   "theorems": [
    "Comps.Props.PyElem.C100_package_partial",
    "Comps.Props.PyElem.C100_groupid_partial",
    "Comps.Props.PyElem.C100_false"
   ],
   "note": "None reads back as an empty string or as type 1 (C100_false)."
  },
  {
   "property": "C101",
   "status": "partial",
   "theorems": [
    "Comps.Props.PyElem.C101_group_partial",
    "Comps.Props.PyElem.C101_entry_partial",
    "Comps.Props.PyElem.C101_package_partial",
    "Comps.Props.PyElem.C101_groupid",
    "Comps.Props.PyElem.C101_false_group",
    "Comps.Props.PyElem.C101_false_entry",
    "Comps.Props.PyElem.C101_false_package"
   ],
   "note": "Display orders that are not positive (groups) or -1 (others) are dropped; Package() has an empty name (C101_false_*)."
  },
  {
   "property": "C102",
   "status": "partial",
   "theorems": [
    "Comps.Props.PyElem.C102_groupid",
    "Comps.Props.PyElem.C102_category",
    "Comps.Props.PyElem.C102_env",
    "Comps.Props.PyElem.C102_package_partial",
    "Comps.Props.PyElem.C102_group_partial",
    "Comps.Props.PyElem.C102_false",
    "Comps.Props.PyElem.C102_false_group"
   ],
   "note": "Proved for group ids, categories and environments. False for packages and groups that differ in basearchonly only."
  },
  {
   "property": "C103",
   "status": "partial",
   "theorems": [
    "Comps.Props.PyElem.C103_package",
    "Comps.Props.PyElem.C103_group_partial",
    "Comps.Props.PyElem.C103_category_partial",
    "Comps.Props.PyElem.C103_env_partial",
    "Comps.Props.PyElem.C103_false",
    "Comps.Props.PyElem.C103_str"
   ],
   "note": "Negative numbers in the text of an entry stop hash (C103_false)."
  },
  {
   "property": "C104",
   "status": "partial",
   "theorems": [
    "Comps.Props.PyElem.C104_partial",
    "Comps.Props.PyElem.C104_false",
    "Comps.Props.PyElem.C104_bad"
   ],
   "note": "Without a type nothing is found (C104_false); type UNKNOWN is taken as no type."
  },
  {
   "property": "C105",
   "status": "partial",
   "theorems": [
    "Comps.Props.PyElem.C105_entries",
    "Comps.Props.PyElem.C105_meaning",
    "Comps.Props.PyElem.C105_groupid_partial",
    "Comps.Props.PyElem.C105_false"
   ],
   "note": "Comparing a group id with None reads beyond the object; with bytes it answers with an exception set (C105_false)."
  },
  {
   "property": "C106",
   "status": "proved",
   "theorems": [
    "Comps.Props.PyHeap.C106_invisible",
    "Comps.Props.PyHeap.C106_safe"
   ],
   "note": "Refinement of a semantics without counts and without freeing, for all programs; C106_safe for up to 10^9 calls (lengths are int)."
  },
  {
   "property": "C107",
   "status": "partial",
   "theorems": [
    "Comps.Props.PyHeap.C107_partial",
    "Comps.Props.PyHeap.C107_false"
   ],
   "note": "False after an assignment of name_by_lang or desc_by_lang (C109) and for `is` (C107_false)."
  },
  {
   "property": "C108",
   "status": "proved",
   "theorems": [
    "Comps.Props.PyHeap.C108_shared"
   ],
   "note": "All calls later but those that keep the Python object itself."
  },
  {
   "property": "C109",
   "status": "partial",
   "theorems": [
    "Comps.Props.PyHeap.C109_partial",
    "Comps.Props.PyHeap.C109_false"
   ],
   "note": "Holds through the same Python object; false through another one for the same entry (C109_false)."
  },
  {
   "property": "C110",
   "status": "partial",
   "theorems": [
    "Comps.Props.PyHeap.C110_exact",
    "Comps.Props.PyHeap.C110_partial",
    "Comps.Props.PyHeap.C110_false",
    "Comps.Props.PyHeap.C110_false_assign",
    "Comps.Props.PyHeap.C110_false_item"
   ],
   "note": "C110_exact says what is left in all cases. Item assignment, remove and assignment of lists leak (C110_false*)."
  },
  {
   "property": "C111",
   "status": "proved",
   "theorems": [
    "Comps.Props.PyHeap.C111_search"
   ],
   "note": "Members in terms of the semantics without counts, which C106 ties to the code."
  },
  {
   "property": "C112",
   "status": "partial",
   "theorems": [
    "Comps.Props.PyHeap.C112_exact",
    "Comps.Props.PyHeap.C112_crash",
    "Comps.Props.PyHeap.C112_partial",
    "Comps.Props.PyHeap.C112_kinds",
    "Comps.Props.PyHeap.C112_false"
   ],
   "note": "C112_exact: the calls that crash are exactly those of R.crash. False for del of numbers and flags and for item assignment in package lists (C112_false). C112_kinds: a list takes and gives only its kind of object."
  },
  {
   "property": "C113",
   "status": "partial",
   "theorems": [
    "Comps.Props.ParseAttrs.C113_partial",
    "Comps.Props.ParseAttrs.C113_false"
   ],
   "note": "False when an attribute name is a proper prefix of one written before it (C113_false): siblings get lost in the dictionary of attributes."
  },
  {
   "property": "C114",
   "status": "partial",
   "theorems": [
    "Comps.Props.ParseAttrs.C114_partial",
    "Comps.Props.ParseAttrs.C114_false"
   ],
   "note": "Messages as a permutation (C114_partial); of attributes ab, c, a only two are reported (C114_false)."
  },
  {
   "property": "C115",
   "status": "proved",
   "theorems": [
    "Comps.Props.Radix.C115_freed_once"
   ],
   "note": "Every pointer handed over is in exactly one place: destroyed, held or lost; any callbacks."
  },
  {
   "property": "C116",
   "status": "partial",
   "theorems": [
    "Comps.Props.Radix.C116_partial",
    "Comps.Props.Radix.C116_false",
    "Comps.Props.Radix.C116_false_empty"
   ],
   "note": "For histories without the empty key in which no key is a proper prefix of a string given before (C116_partial); otherwise siblings and the value of the empty key leak (C116_false, C116_false_empty)."
  },
  {
   "property": "C117",
   "status": "proved",
   "theorems": [
    "Comps.Props.Radix.C117_agrees"
   ],
   "note": "Including the faults; with a destructor. Whole strings (no writes with a length, no clearing)."
  },
  {
   "property": "C118",
   "status": "partial",
   "theorems": [
    "Comps.Props.Radix.C118_partial",
    "Comps.Props.Radix.C118_whole",
    "Comps.Props.Radix.C118_false"
   ],
   "note": "When a key that starts with the n bytes is present (C118_partial); when no string given before starts with them the length is ignored (C118_whole, C118_false)."
  },
  {
   "property": "C119",
   "status": "proved",
   "theorems": [
    "Comps.Props.Radix.C119_union"
   ],
   "note": "Operands made by writes and removals, with destructors and cloners, second operand without constructor."
  },
  {
   "property": "C120",
   "status": "partial",
   "theorems": [
    "Comps.Props.Radix.C120_partial",
    "Comps.Props.Radix.C120_false"
   ],
   "note": "What is destroyed, and that an empty dictionary stays usable (C120_partial). Every use after clearing a non-empty one is a use of freed memory (C120_false)."
  },
  {
   "property": "C121",
   "status": "partial",
   "theorems": [
    "Comps.Props.Radix.C121_partial",
    "Comps.Props.Radix.C121_removal_partial",
    "Comps.Props.Radix.C121_false"
   ],
   "note": "Writes exactly (C121_partial); a removal destroys exactly the values of the pairs it takes out, whose keys all begin with the key removed (C121_removal_partial). False that it takes out that key only (C121_false)."
  },
  {
   "property": "C122",
   "status": "partial",
   "theorems": [
    "Comps.Props.PyM.C122_partial",
    "Comps.Props.PyM.C122_item_partial",
    "Comps.Props.PyM.C122_false"
   ],
   "note": "For every key but the empty one, and unless a list is assigned to itself (C122_partial, C122_item_partial); those cases lose the list (C122_false)."
  },
  {
   "property": "C123",
   "status": "partial",
   "theorems": [
    "Comps.Props.PyM.C123_partial",
    "Comps.Props.PyM.C123_wraps_partial",
    "Comps.Props.PyM.C123_false"
   ],
   "note": "When wherever k leaves a key the common part is a key (C123_partial); otherwise the common part becomes a key and what it leaves is wrapped into one string (C123_wraps_partial, C123_false)."
  },
  {
   "property": "C124",
   "status": "partial",
   "theorems": [
    "Comps.Props.PyM.C124_exact",
    "Comps.Props.PyM.C124_partial",
    "Comps.Props.PyM.C124_false"
   ],
   "note": "C124_exact: every program does what the specification Does says, including the crashes. C124_partial: no crash for prefix-free keys and calls that do not remove. C124_false: crashes."
  },
  {
   "property": "C125",
   "status": "partial",
   "theorems": [
    "Comps.Props.PyM.C125_partial",
    "Comps.Props.PyM.C125_del_partial",
    "Comps.Props.PyM.C125_false"
   ],
   "note": "What assignment and deletion do to the length (C125_partial, C125_del_partial); it is not the number of keys (C125_false)."
  },
  {
   "property": "C126",
   "status": "partial",
   "theorems": [
    "Comps.Props.PyM.C126_partial",
    "Comps.Props.PyM.C126_false"
   ],
   "note": "It appends instead of overwriting: exact effect when wherever keys part the common part is a key of m (C126_partial); C126_false."
  },
  {
   "property": "C127",
   "status": "partial",
   "theorems": [
    "Comps.Props.PyM.C127_keys_partial",
    "Comps.Props.PyM.C127_items_partial",
    "Comps.Props.PyM.C127_false"
   ],
   "note": "Listings that succeed agree with has_key and reading (C127_keys_partial, C127_items_partial); keys that were never assigned are listed and can make listing fail (C127_false)."
  },
  {
   "property": "C128",
   "status": "partial",
   "theorems": [
    "Comps.Props.PyM.C128_partial",
    "Comps.Props.PyM.C128_false"
   ],
   "note": "Raises KeyError instead of None (C128_partial, C128_false)."
  },
  {
   "property": "C129",
   "status": "partial",
   "theorems": [
    "Comps.Props.PyM.C129_partial",
    "Comps.Props.PyM.C129_false"
   ],
   "note": "Compares the keys only (C129_partial, C129_false)."
  },
  {
   "property": "C130",
   "status": "partial",
   "theorems": [
    "Comps.Props.Own.C130_exact",
    "Comps.Props.Own.C130_ids_exact",
    "Comps.Props.Own.C130_partial",
    "Comps.Props.Own.C130_ids_partial",
    "Comps.Props.Own.C130_false",
    "Comps.Props.Own.C130_options_false"
   ],
   "note": "C130_exact and C130_ids_exact give the content and the exact number of leaked objects; nothing leaks when names are distinct (C130_partial, C130_ids_partial); C130_false, C130_options_false: repeated names leak."
  },
  {
   "property": "C131",
   "status": "partial",
   "theorems": [
    "Comps.Props.Own.C131_exact",
    "Comps.Props.Own.C131_partial",
    "Comps.Props.Own.C131_false"
   ],
   "note": "C131_exact gives the content and the exact number of leaked objects; nothing leaks when the ids of the first document are distinct (C131_partial); C131_false: repeated ids leak."
  },
  {
   "property": "C132",
   "status": "partial",
   "theorems": [
    "Comps.Props.Own.C132_exact",
    "Comps.Props.Own.C132_partial",
    "Comps.Props.Own.C132_false",
    "Comps.Props.Own.C132_lost_false"
   ],
   "note": "C132_exact gives the content for all lists; each id once for operands with distinct ids (C132_partial); repeated ids of the second list stay (C132_false) or are dropped (C132_lost_false)."
  },
  {
   "property": "C133",
   "status": "partial",
   "theorems": [
    "Comps.Props.Own.C133_exact",
    "Comps.Props.Own.C133_partial",
    "Comps.Props.Own.C133_false"
   ],
   "note": "C133_exact: the entries only the second list has are shared; independence when there are none (C133_partial); C133_false."
  },
  {
   "property": "C134",
   "status": "partial",
   "theorems": [
    "Comps.Props.Own.C134_exact",
    "Comps.Props.Own.C134_partial",
    "Comps.Props.Own.C134_false"
   ],
   "note": "C134_exact gives the number of leaked objects; none for distinct ids (C134_partial); C134_false."
  },
  {
   "property": "C135",
   "status": "partial",
   "theorems": [
    "Comps.Props.Own.C135_exact",
    "Comps.Props.Own.C135_partial",
    "Comps.Props.Own.C135_false"
   ],
   "note": "C135_exact: only the type is taken over; equal to the merge when packages of one name differ in type only (C135_partial); C135_false."
  },
  {
   "property": "C136",
   "status": "partial",
   "theorems": [
    "Comps.Props.Own.C136_partial",
    "Comps.Props.Own.C136_false"
   ],
   "note": "Holds when the left operand is a libcomps object (C136_partial); a foreign left operand is used as a libcomps object (C136_false)."
  },
  {
   "property": "C137",
   "status": "partial",
   "theorems": [
    "Comps.Props.C137_partial",
    "Comps.Props.C137_false"
   ],
   "note": "Holds when no key of the second operand is a proper prefix of a key written into the first (C137_partial); C137_false: a key is lost."
  },
  {
   "property": "C138",
   "status": "proved",
   "theorems": [
    "Comps.Props.PyC.C138_reported"
   ],
   "note": "In every state a Python program can reach (C140_made gives the lists); the bounds are those of the counters of the validator."
  },
  {
   "property": "C139",
   "status": "proved",
   "theorems": [
    "Comps.Props.C139_built",
    "Comps.Props.C139_usable",
    "Comps.Props.C139_validated"
   ],
   "note": "For all runs that end; a run that does not end in the model is one of the faults of C29. Validation for lists of up to 10^9 members (counters of the validator)."
  },
  {
   "property": "C140",
   "status": "partial",
   "theorems": [
    "Comps.Props.PyC.C140_made",
    "Comps.Props.PyC.C140_call_partial",
    "Comps.Props.PyC.C140_program_partial",
    "Comps.Props.PyC.C140_false",
    "Comps.Props.PyC.C140_order_false",
    "Comps.Props.PyC.C140_parse_false"
   ],
   "note": "Every call that is not excepted ends without a fault in every state a program can reach (C140_call_partial, C140_program_partial). Excepted, and crashing: deleting an attribute, comparing with another type (C140_false), writing a negative display order (C140_order_false), XML the parser crashes on (C140_parse_false, C29); excepted without proof of a crash: validating more than 10^9 members in an entry or 2^64 entries."
  },
  {
   "property": "C141",
   "status": "partial",
   "theorems": [
    "Comps.Props.PyC.C141_messages",
    "Comps.Props.PyC.C141_log_partial",
    "Comps.Props.PyC.C141_load",
    "Comps.Props.PyC.C141_write",
    "Comps.Props.PyC.C141_false"
   ],
   "note": "For every program Python can write whose input has less than 2^31 lines and columns. Messages of loading UTF-8 input, and of xml_f with UTF-8 ids and file name, are UTF-8 (C141_load, C141_write), so get_last_log() does not crash. False for positions beyond 2^31 (C141_false)."
  },
  {
   "property": "C142",
   "status": "partial",
   "theorems": [
    "Comps.Props.PyC.C142_errors",
    "Comps.Props.PyC.C142_false"
   ],
   "note": "The type of an entry is told from its code and first argument (Model/PyLog). False as far as the texts go: messages that begin with WARNING are recorded as errors (C142_false)."
  },
  {
   "property": "C143",
   "status": "partial",
   "theorems": [
    "Comps.Props.PyC.C143_left_out_partial",
    "Comps.Props.PyC.C143_category_false",
    "Comps.Props.PyC.C143_env_false",
    "Comps.Props.PyC.C143_element_false"
   ],
   "note": "Holds for the entries left out by xml_f: one message each, with the id. The kind is wrong for categories and environments (C143_category_false, C143_env_false); the element is missing or wrong for a second display_order and a wrong uservisible (C143_element_false). Messages of failing writers are not covered."
  },
  {
   "property": "C144",
   "status": "partial",
   "theorems": [
    "Comps.Props.PyHeap.C144_search",
    "Comps.Props.PyHeap.C144_refused",
    "Comps.Props.PyHeap.C144_partial",
    "Comps.Props.PyHeap.C144_false"
   ],
   "note": "Proved for all programs of up to 10^9 calls what a search gives and that nothing changes (C144_search), and for all programs that other arguments are refused (C144_refused). That the entries searched are those of c.groups holds for programs without clear() (C144_partial) and is false after it (C144_false)."
  },
  {
   "property": "C145",
   "status": "proved",
   "theorems": [
    "Comps.Props.PyHeap.C145_same",
    "Comps.Props.PyHeap.C145_assigned"
   ],
   "note": "For every program before and every program between that keeps both variables and assigns no attribute of that name (of any document); clear() is allowed."
  },
  {
   "property": "C146",
   "status": "partial",
   "theorems": [
    "Comps.Props.PyHeap.C146_exact",
    "Comps.Props.PyHeap.C146_partial",
    "Comps.Props.PyHeap.C146_append",
    "Comps.Props.PyHeap.C146_false"
   ],
   "note": "Exact for all objects, after programs of up to 10^9 calls (C146_exact, C146_append). False for a package made without a name: its name is \"\", and validate() passes (C146_false)."
  },
  {
   "property": "C147",
   "status": "proved",
   "theorems": [
    "Comps.Props.BRadix.C147_map"
   ],
   "note": "For every list of writes with keys of one length and a destructor that is not NULL (C147_map)."
  },
  {
   "property": "C148",
   "status": "proved",
   "theorems": [
    "Comps.Props.BRadix.C148_owned"
   ],
   "note": "For every history of writes and removals that does not fault, with keys of one length in the writes and a destructor that is not NULL (C148_owned)."
  },
  {
   "property": "C149",
   "status": "partial",
   "theorems": [
    "Comps.Props.BRadix.C149_partial",
    "Comps.Props.BRadix.C149_false",
    "Comps.Props.BRadix.C149_false_range",
    "Comps.Props.BRadix.C149_false_empty",
    "Comps.Props.BRadix.C149_false_destructor"
   ],
   "note": "For histories in which no key is empty and none is a proper prefix of a key written before, with a destructor that is not NULL (C149_partial). False otherwise: the longer key is cut at both ends (C149_false), no longer readable, or the copy of its rest runs out of bounds (C149_false_range); the value of the empty key leaks (C149_false_empty); a replacement calls a NULL destructor (C149_false_destructor)."
  },
  {
   "property": "C150",
   "status": "partial",
   "theorems": [
    "Comps.Props.BRadix.C150_partial",
    "Comps.Props.BRadix.C150_single_partial",
    "Comps.Props.BRadix.C150_false",
    "Comps.Props.BRadix.C150_false_kept",
    "Comps.Props.BRadix.C150_false_fault"
   ],
   "note": "After orderly histories (as in C149) a removal that does not fault does nothing or removes one key of the same length, with its value (C150_partial); the only key of a dictionary is removed (C150_single_partial). False: another key may be removed (C150_false), the key may stay (C150_false_kept), freed memory may be used (C150_false_fault)."
  },
  {
   "property": "C151",
   "status": "partial",
   "theorems": [
    "Comps.Props.BRadix.C151_partial",
    "Comps.Props.BRadix.C151_false"
   ],
   "note": "After orderly writes a copy reads like the original if the cloner is not passed NULL, which it is not if no two different keys begin with the same byte and no value is NULL (C151_partial). False for two keys with a common first byte (C151_false)."
  },
  {
   "property": "C152",
   "status": "partial",
   "theorems": [
    "Comps.Props.BRadix.C152_partial",
    "Comps.Props.BRadix.C152_false"
   ],
   "note": "With a destructor, clearing destroys what the dictionary lists, and an empty dictionary is unaffected (C152_partial). False: the list keeps pointing at freed cells, so every later call on a dictionary that had a key uses freed memory (C152_false)."
  },
  {
   "property": "C153",
   "status": "partial",
   "theorems": [
    "Comps.Props.MRadix.C153_nested_partial",
    "Comps.Props.MRadix.C153_wrote_partial",
    "Comps.Props.MRadix.C153_false",
    "Comps.Props.MRadix.C153_false_null",
    "Comps.Props.MRadix.C153_false_empty",
    "Comps.Props.MRadix.C153_false_length"
   ],
   "note": "For histories without NULL and empty keys in which a write leaves an earlier key only at a key or at the first byte, every key reads as the values written (C153_nested_partial). For every dictionary made by writes, the exact effect of one more write (C153_wrote_partial). False: after \"ab\" and \"ac\" the list of \"ab\" is an element of a list and values written under \"a\" are lost (C153_false); NULL is dropped in a new list only (C153_false_null); the empty key is not stored (C153_false_empty); comps_mdict_set_n stores under the whole string or reads past a key (C153_false_length)."
  },
  {
   "property": "C154",
   "status": "partial",
   "theorems": [
    "Comps.Props.MRadix.C154_listed_partial",
    "Comps.Props.MRadix.C154_fault_partial",
    "Comps.Props.MRadix.C154_false"
   ],
   "note": "Keys and values for the histories of C153_nested_partial (C154_listed_partial). For every list of writes, the listings fail exactly if some key has a NULL list, and then they, copies and unions dereference NULL (C154_fault_partial). False: \"ab\" and \"ac\" (C154_false)."
  },
  {
   "property": "C155",
   "status": "partial",
   "theorems": [
    "Comps.Props.MRadix.C155_calm_partial",
    "Comps.Props.MRadix.C155_owned_partial",
    "Comps.Props.MRadix.C155_false"
   ],
   "note": "For every history of writes that leave no key at a place that is not a key, and of removals that do not fault: each pointer is destroyed once or listed once (C155_owned_partial); the histories of C153_nested_partial are among these (C155_calm_partial). False: after \"ab\" and \"ac\" the destructor is given a list of the dictionary itself (C155_false)."
  },
  {
   "property": "C156",
   "status": "partial",
   "theorems": [
    "Comps.Props.MRadix.C156_partial",
    "Comps.Props.MRadix.C156_false",
    "Comps.Props.MRadix.C156_clear_partial",
    "Comps.Props.MRadix.C156_clear_false"
   ],
   "note": "For the dictionaries of C155: exactly when a removal uses freed memory, what it destroys and what it leaves (C156_partial); clearing destroys all values (C156_clear_partial). False: removing \"ab\" from {\"a\",\"ab\"} uses freed memory and removing \"a\" leaves an empty list (C156_false); a cleared dictionary that had a key cannot be used (C156_clear_false)."
  },
  {
   "property": "C157",
   "status": "partial",
   "theorems": [
    "Comps.Props.MRadix.C157_clone_partial",
    "Comps.Props.MRadix.C157_union_partial",
    "Comps.Props.MRadix.C157_false",
    "Comps.Props.MRadix.C157_false_shared"
   ],
   "note": "For the dictionaries of C155: copies (C157_clone_partial). Unions of dictionaries made by writes that, one after the other, leave no key at a place that is not a key (C157_union_partial). False: {\"ab\"} and {\"ac\"} (C157_false); without a constructor the values are shared, and destroyed by both (C157_false_shared)."
  },
  {
   "property": "C158",
   "status": "proved",
   "theorems": [
    "Comps.Props.C158_walk"
   ],
   "note": "After every history of edits of any number of lists (as in the other list properties, without a list concatenated to itself)."
  },
  {
   "property": "C159",
   "status": "partial",
   "theorems": [
    "Comps.Props.C159_partial",
    "Comps.Props.C159_false"
   ],
   "note": "What one call gives, and walks from the end or the last position (C159_partial). False: the iterator is never advanced, so every other walk gives the second object for ever (C159_false)."
  },
  {
   "property": "C160",
   "status": "partial",
   "theorems": [
    "Comps.Props.C160_partial",
    "Comps.Props.C160_false",
    "Comps.Props.C160_false_class",
    "Comps.Props.C160_false_order"
   ],
   "note": "For two lists of one class whose members were made by calls of the library: ==, != and that == is an equivalence (C160_partial). False: anything on the right that is not a list of this library is read as one (C160_false); two non-empty lists of different classes are compared as if of one (C160_false_class); <, <=, >, >= answer False, with no exception (C160_false_order)."
  },
  {
   "property": "C161",
   "status": "partial",
   "theorems": [
    "Comps.Props.C161_partial",
    "Comps.Props.C161_false",
    "Comps.Props.C161_false_text"
   ],
   "note": "Equal results, documents, messages and faults for any history whose inputs end without text after the last tag, if the parser does not point to a released document and the next file has a <comps> or the parser has no document (C161_partial). False: a parser with a document, reading a file without <comps>, faults or keeps a pointer to the released document, for every such history and file (C161_false); after a file that broke off in a text a clean file gives a message, as text_buffer_len is not reset (C161_false_text)."
  },
  {
   "property": "C162",
   "status": "partial",
   "theorems": [
    "Comps.Props.C162_exact",
    "Comps.Props.C162_partial",
    "Comps.Props.C162_false",
    "Comps.Props.C162_false_lost"
   ],
   "note": "Exact for all histories: which documents are lost and when destroying is safe, in terms of the <comps> tags of the inputs (C162_exact). Safe and without loss if every file has one <comps> and no strings are read (C162_partial). False: a file with <comps> and then one without (C162_false: use after free); two <comps> in one file, or two strings (C162_false_lost). What is lost is counted in the model beside the calls (lostBy)."
  },
  {
   "property": "C163",
   "status": "proved",
   "theorems": [
    "Comps.Props.C163_owned",
    "Comps.Props.C163_released",
    "Comps.Props.C163_copied"
   ],
   "note": "For every program that uses and gives away only references it holds (induction over the calls, invariant on owners, values and entries). comps_log_error/_warning copy, the _x variants take. The memory holds the argument objects; the log structure itself and printing to stderr are not modelled here (texts: C38, C141)."
  },
  {
   "property": "C164",
   "status": "partial",
   "theorems": [
    "Comps.Props.C164_false",
    "Comps.Props.C164_false_written",
    "Comps.Props.C164_partial"
   ],
   "note": "False for every multi-dictionary that lists anything (C164_false, in every reachable state; C164_false_written): comps_objmrtree_values_walk reads the cells of an object list as cells of another list type, so an object is taken for a cell. Holds if nothing is listed (C164_partial)."
  },
  {
   "property": "C165",
   "status": "partial",
   "theorems": [
    "Comps.Props.C165_order",
    "Comps.Props.C165_self_partial",
    "Comps.Props.C165_empty_partial",
    "Comps.Props.C165_false"
   ],
   "note": "The order of merges never matters (C165_order, all operands). Merging with itself or with a new entry changes nothing if no list is NULL (C165_self_partial, C165_empty_partial); a NULL list becomes an empty one, which compares different (C165_false)."
  },
  {
   "property": "C166",
   "status": "partial",
   "theorems": [
    "Comps.Props.C166_order_partial",
    "Comps.Props.C166_self_partial",
    "Comps.Props.C166_false",
    "Comps.Props.C166_false_env"
   ],
   "note": "The order does not matter if no list is NULL (C166_order_partial; a NULL list is a fault, C21_false). With itself: properties and lists stay (C166_self_partial), but translations are lost (C166_false) and an environment that lists a group twice lists it once (C166_false_env)."
  },
  {
   "property": "C167",
   "status": "partial",
   "theorems": [
    "Comps.Props.C167_order_partial",
    "Comps.Props.C167_self_partial",
    "Comps.Props.C167_false"
   ],
   "note": "For documents with distinct ids and an encoding (C167_order_partial, C167_self_partial); false if the second document has two groups of one id (C167_false) or without encoding (C23_false_encoding). The comparison of the whole document with its merge with itself is not claimed: black list and whiteout are dropped (C57)."
  },
  {
   "property": "C168",
   "status": "partial",
   "theorems": [
    "Comps.Props.C168_partial",
    "Comps.Props.C168_false"
   ],
   "note": "If entries of one name have the same architectures and no list is NULL (C168_partial); false otherwise (C168_false)."
  },
  {
   "property": "C169",
   "status": "partial",
   "theorems": [
    "Comps.Props.C169_order_partial",
    "Comps.Props.C169_self_partial",
    "Comps.Props.C169_false",
    "Comps.Props.C169_false_ids"
   ],
   "note": "The order does not matter if no list is NULL and the first two documents have an encoding (C169_order_partial; otherwise a fault, C24_false_encoding, C24_false_null). With itself: for distinct ids, no translations and no language packs (C169_self_partial); false with translations (C169_false) and with two groups of one id (C169_false_ids)."
  },
  {
   "property": "C170",
   "status": "partial",
   "theorems": [
    "Comps.Props.C170_partial",
    "Comps.Props.C170_false"
   ],
   "note": "For documents with distinct ids and an encoding, without NULL lists, that agree about the architectures of what both have (C170_partial); false if they have a group for different architectures (C170_false)."
  },
  {
   "property": "C171",
   "status": "partial",
   "theorems": [
    "Comps.Props.C171_partial",
    "Comps.Props.C171_false",
    "Comps.Props.C171_false_order"
   ],
   "note": "Holds for documents that agree also in what comparing does not look at: architectures and basearchonly, the listing order of translations and language packs, the values of the black and white lists, and whose counters are right (C171_partial). False for a package that differs in basearchonly (C171_false) and for translations entered in another order (C171_false_order)."
  },
  {
   "property": "C172",
   "status": "partial",
   "theorems": [
    "Comps.Props.C172_merge",
    "Comps.Props.C172_common_partial",
    "Comps.Props.C172_merge_docs_partial",
    "Comps.Props.C172_common_docs_partial",
    "Comps.Props.C172_false"
   ],
   "note": "Merging entries respects equality (C172_merge), so does intersecting entries without NULL lists (C172_common_partial), merging documents of which the first has an encoding (C172_merge_docs_partial) and intersecting such documents without NULL lists (C172_common_docs_partial). False for the filter by architecture, which looks at architectures of packages that comparing ignores (C172_false)."
  },
  {
   "property": "C173",
   "status": "proved",
   "theorems": [
    "Comps.Props.PyC.C173_sums"
   ],
   "note": "Proved for every program of calls that Python code can make (NativeOp) and all documents in it, the sums included (C173_sums)."
  },
  {
   "property": "C174",
   "status": "partial",
   "theorems": [
    "Comps.Props.PyC.C174_partial",
    "Comps.Props.PyC.C174_false"
   ],
   "note": "Proved for documents in which no two entries of a kind have one id (C174_partial); false with two groups of one id, which a sum merges or drops depending on the side (C174_false)."
  },
  {
   "property": "C175",
   "status": "partial",
   "theorems": [
    "Comps.Props.PyC.C175_partial",
    "Comps.Props.PyC.C175_false"
   ],
   "note": "Proved for all programs of calls that Python code can make and all documents that can be stored (encoding UTF-8, the conditions of C28), if no call of the libxml2 writer fails (C175_partial). False for a package made without a type, which is written as 'default' (C175_false). libxml2 and expat are represented by Transmits, as in C28."
  },
  {
   "property": "C176",
   "status": "proved",
   "theorems": [
    "Comps.Props.C176_documents",
    "Comps.Props.PyC.C176_python"
   ],
   "note": "Proved for all documents that can be filtered by both lists (C176_documents) and for all programs of calls that Python code can make (C176_python)."
  },
  {
   "property": "C177",
   "status": "partial",
   "theorems": [
    "Comps.Props.PyC.C177_partial",
    "Comps.Props.PyC.C177_false"
   ],
   "note": "Proved for documents without two entries of one id that agree on the architectures of entries and members both have (C177_partial); false if both have a group of one id for different architectures (C177_false)."
  },
  {
   "property": "C178",
   "status": "proved",
   "theorems": [
    "Comps.Props.C178_documents",
    "Comps.Props.PyC.C178_python"
   ],
   "note": "Proved for documents of the C library (C178_documents) and for all programs of calls that Python code can make (C178_python)."
  },
  {
   "property": "C179",
   "status": "proved",
   "theorems": [
    "Comps.Props.C179_documents",
    "Comps.Props.PyC.C179_python"
   ],
   "note": "Proved for all documents that can be filtered by the wider list (C179_documents) and for all programs of calls that Python code can make (C179_python)."
  },
  {
   "property": "C180",
   "status": "proved",
   "theorems": [
    "Comps.Props.C180_filters",
    "Comps.Props.PyC.C180_python"
   ],
   "note": "Proved for the filters of groups, categories, environments and documents (C180_filters) and for all programs of calls that Python code can make (C180_python)."
  },
  {
   "property": "C181",
   "status": "proved",
   "theorems": [
    "Comps.Props.C181_documents"
   ],
   "note": "Proved for all documents that can be filtered by the wider list (C181_documents)."
  }
 ]
}