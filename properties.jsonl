{"id": "C01", "title": "Dictionary read-after-write", "statement": "After comps_objdict_set(d, k, v) with a non-empty key k, comps_objdict_get(d, k) returns v, whatever d held before.", "quantifier": "every dictionary state reachable by any history of set/unset/clear/clone/copy/unite calls, every non-empty key, every value", "why_tests_cant": "The radix tree has four insertion branches (new child, replace, prefix split, mid-edge split) that nest to any depth; tests cover a handful of key sets.", "anchors": [{"file": "libcomps/src/comps_objradix.c", "symbol": "__comps_objrtree_set"}, {"file": "libcomps/src/comps_objradix.c", "symbol": "__comps_objrtree_get"}, {"file": "libcomps/src/comps_objdict.c", "symbol": "comps_objdict_set"}, {"file": "libcomps/src/comps_objdict.c", "symbol": "comps_objdict_get"}]}
{"id": "C02", "title": "Dictionary writes do not disturb other keys", "statement": "comps_objdict_set(d, k, v) leaves comps_objdict_get(d, k') unchanged for every k' different from k.", "quantifier": "every reachable dictionary state and every pair of distinct keys", "why_tests_cant": "Loss of an unrelated key depends on the shape of the tree built by earlier keys and on whether a sibling list was built by prepend or append; no finite test set covers all shapes.", "anchors": [{"file": "libcomps/src/comps_objradix.c", "symbol": "__comps_objrtree_set"}, {"file": "libcomps/src/comps_hslist.c", "symbol": "comps_hslist_append"}, {"file": "libcomps/src/comps_hslist.c", "symbol": "comps_hslist_prepend"}, {"file": "libcomps/src/comps_hslist.c", "symbol": "comps_hslist_insert_after"}]}
{"id": "C03", "title": "Dictionary equals a finite map over write histories", "statement": "After any sequence of comps_objdict_set calls, comps_objdict_get(k) returns the value of the last set with key k, and NULL if k was never set.", "quantifier": "every finite sequence of (key, value) writes on a fresh dictionary", "why_tests_cant": "Histories are unbounded and outcomes depend on the order in which keys sharing prefixes arrive.", "anchors": [{"file": "libcomps/src/comps_objradix.c", "symbol": "__comps_objrtree_set"}, {"file": "libcomps/src/comps_objradix.c", "symbol": "__comps_objrtree_get"}]}
{"id": "C04", "title": "Key, value and pair listings agree with lookup", "statement": "comps_objdict_keys/values/pairs list every key whose lookup is non-NULL exactly once, with exactly the value that lookup returns, and nothing else; the three listings are in the same order.", "quantifier": "every reachable dictionary", "why_tests_cant": "The listing walks the tree with an explicit work list and position-based insertion; correctness is about all tree shapes and depths.", "anchors": [{"file": "libcomps/src/comps_objradix.c", "symbol": "__comps_objrtree_all"}, {"file": "libcomps/src/comps_objradix.c", "symbol": "comps_objrtree_keys"}, {"file": "libcomps/src/comps_objradix.c", "symbol": "comps_objrtree_values"}, {"file": "libcomps/src/comps_objradix.c", "symbol": "comps_objrtree_pairs"}]}
{"id": "C05", "title": "Dictionary removal removes exactly one key", "statement": "comps_objdict_unset(d, k) makes lookup of k return NULL, leaves every other lookup unchanged, and never touches freed memory.", "quantifier": "every reachable dictionary and every key", "why_tests_cant": "Which branch runs depends on list bookkeeping left by the whole insertion history; the memory error shows only for particular shapes.", "anchors": [{"file": "libcomps/src/comps_objradix.c", "symbol": "comps_objrtree_unset"}, {"file": "libcomps/src/comps_hslist.c", "symbol": "comps_hslist_remove"}]}
{"id": "C06", "title": "Dictionary copies hold the same content", "statement": "comps_objdict_clone and comps_object_copy of a dictionary give a dictionary with the same lookups (values replaced by their copies), the same listing order, and the same element count.", "quantifier": "every reachable dictionary", "why_tests_cant": "The copy runs breadth-first with temporary sharing of child lists between original and copy; all depths and shapes matter.", "anchors": [{"file": "libcomps/src/comps_objradix.c", "symbol": "comps_objrtree_clone"}, {"file": "libcomps/src/comps_objradix.c", "symbol": "comps_objrtree_copy"}, {"file": "libcomps/src/comps_objradix.c", "symbol": "comps_objrtree_copy_shallow"}]}
{"id": "C07", "title": "Dictionary element count is right", "statement": "The len field of a dictionary equals the number of keys whose lookup is non-NULL.", "quantifier": "every reachable dictionary", "why_tests_cant": "The counter is maintained separately in each branch; drift only appears for particular operation histories.", "anchors": [{"file": "libcomps/src/comps_objradix.c", "symbol": "__comps_objrtree_set"}, {"file": "libcomps/src/comps_objradix.c", "symbol": "comps_objrtree_unset"}, {"file": "libcomps/src/comps_objradix.c", "symbol": "comps_objrtree_copy"}]}
{"id": "C08", "title": "Dictionary union prefers the second operand", "statement": "comps_objdict_union(a, b) looks up k as b does when b has k, otherwise as a does; a and b are unchanged.", "quantifier": "every pair of reachable dictionaries and every key", "why_tests_cant": "Union re-inserts one tree into another; interaction of the two shapes is unbounded.", "anchors": [{"file": "libcomps/src/comps_objradix.c", "symbol": "comps_objrtree_union"}, {"file": "libcomps/src/comps_objradix.c", "symbol": "comps_objrtree_unite"}]}
{"id": "C09", "title": "Dictionary comparison is equality of content", "statement": "comps_object_cmp of two dictionaries is true exactly when both have the same keys and equal values per key, whatever the order in which the keys were written.", "quantifier": "every pair of reachable dictionaries", "why_tests_cant": "Quantifies over all pairs of trees; insertion order changes the shape of both.", "anchors": [{"file": "libcomps/src/comps_objradix.c", "symbol": "comps_objrtree_cmp"}, {"file": "libcomps/src/comps_objradix.c", "symbol": "comps_objrtree_paircmp"}, {"file": "libcomps/src/comps_set.c", "symbol": "comps_set_cmp"}]}
{"id": "C10", "title": "Multi-dictionary accumulates values in order", "statement": "After any sequence of comps_objmdict_set calls, comps_objmdict_get(k) lists exactly the values set under k, in order, and writing one key never changes what another key lists.", "quantifier": "every finite sequence of (key, value) writes", "why_tests_cant": "Histories are unbounded and node splitting depends on key overlap and order.", "anchors": [{"file": "libcomps/src/comps_objmradix.c", "symbol": "__comps_objmrtree_set"}, {"file": "libcomps/src/comps_objmradix.c", "symbol": "comps_objmrtree_get"}]}
{"id": "C11", "title": "Multi-dictionary comparison is equality of content", "statement": "comps_object_cmp of two multi-dictionaries is true exactly when they have the same keys with equal value lists.", "quantifier": "every pair of multi-dictionaries", "why_tests_cant": "A claim about all pairs of values; tests compare a few.", "anchors": [{"file": "libcomps/src/comps_objmradix.c", "symbol": "comps_objmrtree_cmp"}, {"file": "libcomps/src/comps_objmradix.c", "symbol": "comps_objmrtree_paircmp"}]}
{"id": "C12", "title": "Plain list operations act as sequence operations", "statement": "append, prepend, insert-after, insert-at, shift, pop and remove change the element sequence of a list as the same operation on a mathematical sequence, in any order of calls.", "quantifier": "every finite sequence of list operations on a fresh list", "why_tests_cant": "Bookkeeping of the tail pointer is only wrong after particular orders of calls.", "anchors": [{"file": "libcomps/src/comps_hslist.c", "symbol": "comps_hslist_append"}, {"file": "libcomps/src/comps_hslist.c", "symbol": "comps_hslist_prepend"}, {"file": "libcomps/src/comps_hslist.c", "symbol": "comps_hslist_insert_after"}, {"file": "libcomps/src/comps_hslist.c", "symbol": "comps_hslist_insert_at"}, {"file": "libcomps/src/comps_hslist.c", "symbol": "comps_hslist_shift"}, {"file": "libcomps/src/comps_hslist.c", "symbol": "comps_hslist_pop"}, {"file": "libcomps/src/comps_hslist.c", "symbol": "comps_hslist_remove"}]}
{"id": "C13", "title": "Object list editing acts as sequence editing", "statement": "comps_objlist_append/insert_at/remove_at/remove/set/get/index behave as the same edits on a sequence; the length field always equals the number of elements; an out-of-range position is reported and changes nothing.", "quantifier": "every finite history of edits and every position", "why_tests_cant": "Unbounded histories; boundary positions interact with first/last pointer updates.", "anchors": [{"file": "libcomps/src/comps_objlist.c", "symbol": "comps_objlist_append"}, {"file": "libcomps/src/comps_objlist.c", "symbol": "comps_objlist_insert_at"}, {"file": "libcomps/src/comps_objlist.c", "symbol": "comps_objlist_remove_at"}, {"file": "libcomps/src/comps_objlist.c", "symbol": "comps_objlist_remove"}, {"file": "libcomps/src/comps_objlist.c", "symbol": "comps_objlist_set"}, {"file": "libcomps/src/comps_objlist.c", "symbol": "comps_objlist_get"}, {"file": "libcomps/src/comps_objlist.c", "symbol": "comps_objlist_index"}]}
{"id": "C14", "title": "Slices return the requested elements", "statement": "comps_objlist_sublist_indexed(l, i, j) and the iterator slices return the elements at positions i..j-1 in order, for all in-range bounds.", "quantifier": "every list and every pair of bounds", "why_tests_cant": "Off-by-one behaviour at the end of the list depends on both bounds and length.", "anchors": [{"file": "libcomps/src/comps_objlist.c", "symbol": "comps_objlist_sublist_indexed"}, {"file": "libcomps/src/comps_objlist.c", "symbol": "comps_objlist_sublist_it"}]}
{"id": "C15", "title": "List comparison is element-wise equality", "statement": "comps_object_cmp of two object lists is true exactly when they have the same length and pairwise equal elements.", "quantifier": "every pair of lists", "why_tests_cant": "Quantifies over all pairs and lengths.", "anchors": [{"file": "libcomps/src/comps_objlist.c", "symbol": "comps_objlist_cmp"}]}
{"id": "C16", "title": "Set operations keep members unique", "statement": "A COMPS_Set never holds two members its equality function calls equal; add reports 1 exactly when the member was absent; after add the member is found; remove removes one match and reports it.", "quantifier": "every history of add/remove and every equality function", "why_tests_cant": "Holds for any user supplied equality; tests fix one.", "anchors": [{"file": "libcomps/src/comps_set.c", "symbol": "comps_set_add"}, {"file": "libcomps/src/comps_set.c", "symbol": "comps_set_in"}, {"file": "libcomps/src/comps_set.c", "symbol": "comps_set_remove"}, {"file": "libcomps/src/comps_set.c", "symbol": "comps_set_at"}, {"file": "libcomps/src/comps_set.c", "symbol": "comps_set_data_at"}]}
{"id": "C17", "title": "Set comparison classifies the two sets", "statement": "comps_set_cmp returns 0 exactly when both sets hold the same members up to the equality function, -1 when the first is a proper subset, 1 when it is a proper superset, 2 otherwise.", "quantifier": "every pair of sets and every equivalence relation", "why_tests_cant": "A four-way classification over all pairs of sets of any size.", "anchors": [{"file": "libcomps/src/comps_set.c", "symbol": "comps_set_cmp"}]}
{"id": "C18", "title": "De-duplication keeps first occurrences", "statement": "comps_hslist_unique leaves exactly the first occurrence of every class of equal elements, in the original order.", "quantifier": "every list and every equality function", "why_tests_cant": "All lists and all equality functions.", "anchors": [{"file": "libcomps/src/comps_hslist.c", "symbol": "comps_hslist_unique"}, {"file": "libcomps/src/comps_set.c", "symbol": "comps_set_in"}, {"file": "libcomps/src/comps_set.c", "symbol": "comps_set_add"}]}
{"id": "C19", "title": "Objects are released exactly once, by the last owner", "statement": "For an object created once and retained n times, the first n releases keep it alive, the (n+1)th frees it and runs its destructor once, and no earlier access is to freed memory.", "quantifier": "every interleaving of retain and release calls on any number of objects", "why_tests_cant": "Counts and interleavings are unbounded; use-after-free is not visible to ordinary assertions.", "anchors": [{"file": "libcomps/src/comps_mm.c", "symbol": "comps_refc_create"}, {"file": "libcomps/src/comps_mm.c", "symbol": "comps_refc_destroy"}, {"file": "libcomps/src/comps_mm.c", "symbol": "comps_refc_incref"}, {"file": "libcomps/src/comps_obj.c", "symbol": "comps_object_create"}, {"file": "libcomps/src/comps_obj.c", "symbol": "comps_object_destroy"}, {"file": "libcomps/src/comps_obj.c", "symbol": "comps_object_incref"}]}
{"id": "C20", "title": "Merging two groups keeps every package", "statement": "comps_docgroup_union(a, b) holds every package name of a and of b; for a name in both, the entry of b wins and stays at a's position; a property set in b wins over a, otherwise a's value stays.", "quantifier": "every pair of groups with any package lists and properties", "why_tests_cant": "All package lists, overlaps and duplicates.", "anchors": [{"file": "libcomps/src/comps_docgroup.c", "symbol": "comps_docgroup_union"}]}
{"id": "C21", "title": "Intersecting two groups keeps only common parts", "statement": "comps_docgroup_intersect(a, b) holds exactly the packages whose names are in both, and exactly the properties on which both agree.", "quantifier": "every pair of groups", "why_tests_cant": "All overlaps of two unbounded lists and property maps.", "anchors": [{"file": "libcomps/src/comps_docgroup.c", "symbol": "comps_docgroup_intersect"}]}
{"id": "C22", "title": "Merging and intersecting categories and environments", "statement": "Union of two categories (environments) holds each group id of either operand exactly once, the second operand's entry winning; intersection holds exactly the ids present in both.", "quantifier": "every pair of categories and of environments", "why_tests_cant": "All overlaps and duplicates of unbounded id lists.", "anchors": [{"file": "libcomps/src/comps_doccategory.c", "symbol": "comps_doccategory_union"}, {"file": "libcomps/src/comps_doccategory.c", "symbol": "comps_doccategory_intersect"}, {"file": "libcomps/src/comps_docenv.c", "symbol": "comps_docenv_union"}, {"file": "libcomps/src/comps_docenv.c", "symbol": "comps_docenv_intersect"}]}
{"id": "C23", "title": "Document union covers both documents, one entry per id", "statement": "comps_doc_union(a, b) holds one group (category, environment) for each id present in a or b, equal to the single operand's entry or to the merge of both.", "quantifier": "every pair of documents", "why_tests_cant": "Sizes, overlaps and duplicate ids are unbounded.", "anchors": [{"file": "libcomps/src/comps_doc.c", "symbol": "comps_doc_union"}]}
{"id": "C24", "title": "Document intersection holds common ids only", "statement": "comps_doc_intersect(a, b) holds a group (category, environment) for exactly the ids present in both documents.", "quantifier": "every pair of documents", "why_tests_cant": "Sizes, overlaps and duplicate ids are unbounded.", "anchors": [{"file": "libcomps/src/comps_doc.c", "symbol": "comps_doc_intersect"}]}
{"id": "C25", "title": "Architecture filtering keeps exactly the matching entries", "statement": "Arch filtering of a document/group/category/environment keeps, in order, exactly those entries which list no architecture or list one of the requested ones; filtering twice equals filtering once.", "quantifier": "every document and every list of architectures", "why_tests_cant": "All documents and arch lists, nested at three levels.", "anchors": [{"file": "libcomps/src/comps_doc.c", "symbol": "comps_doc_arch_filter"}, {"file": "libcomps/src/comps_docgroup.c", "symbol": "comps_docgroup_arch_filter"}, {"file": "libcomps/src/comps_doccategory.c", "symbol": "comps_doccategory_arch_filter"}, {"file": "libcomps/src/comps_docenv.c", "symbol": "comps_docenv_arch_filter"}, {"file": "libcomps/src/comps_utils.c", "symbol": "__comps_objlist_intersected"}]}
{"id": "C26", "title": "Queries return exactly the matching entries", "statement": "comps_doc_get_groups/categories/envs return, in document order, exactly the entries that match every criterion given and ignore criteria not given.", "quantifier": "every document and every combination of criteria", "why_tests_cant": "2^5 criteria combinations times all documents.", "anchors": [{"file": "libcomps/src/comps_doc.c", "symbol": "comps_doc_get_groups"}, {"file": "libcomps/src/comps_doc.c", "symbol": "comps_doc_get_categories"}, {"file": "libcomps/src/comps_doc.c", "symbol": "comps_doc_get_envs"}, {"file": "libcomps/src/comps_docgroup.c", "symbol": "comps_docgroup_get_packages"}]}
{"id": "C27", "title": "XML output is balanced", "statement": "The sequence of writer calls made for any document opens and closes elements in a properly nested way, and an error or skip leaves no element open.", "quantifier": "every document and every combination of output options", "why_tests_cant": "All documents times 2^15 option combinations.", "anchors": [{"file": "libcomps/src/comps_doc.c", "symbol": "comps_doc_xml"}, {"file": "libcomps/src/comps_docgroup.c", "symbol": "comps_docgroup_xml"}, {"file": "libcomps/src/comps_doccategory.c", "symbol": "comps_doccategory_xml"}, {"file": "libcomps/src/comps_docenv.c", "symbol": "comps_docenv_xml"}, {"file": "libcomps/src/comps_docpackage.c", "symbol": "comps_docpackage_xml"}, {"file": "libcomps/src/comps_docgroupid.c", "symbol": "comps_docgroupid_xml"}]}
{"id": "C28", "title": "Write then read gives the same content", "statement": "Parsing the XML written for a package, group id, group, category, environment or document gives back an equal object, for objects within the stated format conditions.", "quantifier": "every object meeting the conditions, every option combination", "why_tests_cant": "Round trip over an unbounded object space.", "anchors": [{"file": "libcomps/src/comps_doc.c", "symbol": "comps_doc_xml"}, {"file": "libcomps/src/comps_parse.c", "symbol": "comps_parse_start_elem_handler"}, {"file": "libcomps/src/comps_parse.c", "symbol": "comps_parse_end_elem_handler"}, {"file": "libcomps/src/comps_parse.c", "symbol": "comps_parse_char_data_handler"}, {"file": "libcomps/src/comps_elem.c", "symbol": "comps_elem_packagereq_postproc"}, {"file": "libcomps/src/comps_elem.c", "symbol": "comps_elem_groupid_postproc"}]}
{"id": "C29", "title": "Parsing never crashes on well-formed XML", "statement": "For every properly nested sequence of start/text/end events the parser finishes without undefined behaviour, and its element stack is empty at the end.", "quantifier": "every properly nested event sequence, any depth, any element and attribute names", "why_tests_cant": "Unbounded inputs; crashes hide in rare element/attribute combinations.", "anchors": [{"file": "libcomps/src/comps_parse.c", "symbol": "comps_parse_start_elem_handler"}, {"file": "libcomps/src/comps_parse.c", "symbol": "comps_parse_end_elem_handler"}, {"file": "libcomps/src/comps_elem.c", "symbol": "COMPS_ElemInfos"}]}
{"id": "C30", "title": "Parse result code tells the truth", "statement": "Parsing returns -1 exactly when the XML was not well-formed or unreadable, 1 when something was logged, and 0 when nothing was logged.", "quantifier": "every event sequence and every point at which the XML reader fails", "why_tests_cant": "All inputs and all failure points.", "anchors": [{"file": "libcomps/src/comps_parse.c", "symbol": "comps_parse_file"}, {"file": "libcomps/src/comps_parse.c", "symbol": "comps_parse_str"}, {"file": "libcomps/src/comps_parse.c", "symbol": "__comps_after_parse"}]}
{"id": "C31", "title": "Misplaced elements have no effect on the document", "statement": "An element that is unknown or not allowed at its place, together with everything below it, leaves the document unchanged and produces a log entry.", "quantifier": "every parser state and every subtree", "why_tests_cant": "Subtrees are unbounded; validity propagates through the stack.", "anchors": [{"file": "libcomps/src/comps_parse.c", "symbol": "comps_parse_start_elem_handler"}, {"file": "libcomps/src/comps_parse.c", "symbol": "comps_parse_end_elem_handler"}]}
{"id": "C32", "title": "Parsed text does not depend on input chunking", "statement": "The parsed document depends on the character data only, not on how the XML reader splits it into callbacks.", "quantifier": "every split of every text", "why_tests_cant": "All splits of all texts; the reader's buffer size decides.", "anchors": [{"file": "libcomps/src/comps_parse.c", "symbol": "comps_parse_char_data_handler"}, {"file": "libcomps/src/comps_parse.c", "symbol": "__comps_is_whitespace_only"}]}
{"id": "C33", "title": "Parsed groups have their flags set", "statement": "Every group in a parsed document has default, uservisible and biarchonly values: the parsed ones, or the configured defaults when absent.", "quantifier": "every group element content and every default options", "why_tests_cant": "All element contents.", "anchors": [{"file": "libcomps/src/comps_elem.c", "symbol": "comps_elem_group_postproc"}, {"file": "libcomps/src/comps_elem.c", "symbol": "comps_elem_default_postproc"}, {"file": "libcomps/src/comps_elem.c", "symbol": "comps_elem_uservisible_postproc"}, {"file": "libcomps/src/comps_elem.c", "symbol": "comps_elem_biarchonly_postproc"}]}
{"id": "C34", "title": "Validation reports exactly the failing rules", "statement": "Validation gives an OK result exactly when every rule passes; otherwise the error list is the concatenation, in rule order, of the errors of each failing rule, each message prefixed by its rule text.", "quantifier": "every object and every rule table", "why_tests_cant": "All rule tables and objects.", "anchors": [{"file": "libcomps/src/comps_validate.c", "symbol": "comps_validate_execute"}, {"file": "libcomps/src/comps_validate.c", "symbol": "comps_valgenres_concat"}, {"file": "libcomps/src/comps_validate.c", "symbol": "comps_valgenres_prefix"}]}
{"id": "C35", "title": "Duplicate check is exact and memory safe", "statement": "The uniqueness check passes exactly when no two elements compare equal; otherwise it reports one message per repeated element with the right positions, written within its buffer.", "quantifier": "every list", "why_tests_cant": "All lists and all index magnitudes (buffer size depends on number of digits).", "anchors": [{"file": "libcomps/src/comps_validate.c", "symbol": "comps_objlist_unique_check"}, {"file": "libcomps/src/comps_utils.c", "symbol": "digits_count"}]}
{"id": "C36", "title": "Package type names survive the round trip", "statement": "For each of the four package types, the name written to XML is read back as the same type, and any other text is read as unknown.", "quantifier": "every package type and every string", "why_tests_cant": "All strings.", "anchors": [{"file": "libcomps/src/comps_docpackage.c", "symbol": "comps_docpackage_type_str"}, {"file": "libcomps/src/comps_docpackage.c", "symbol": "comps_docpackage_xml"}, {"file": "libcomps/src/comps_elem.c", "symbol": "comps_package_get_type"}]}
{"id": "C37", "title": "Architecture attribute survives the round trip", "statement": "Splitting the text written for an architecture list gives back the list, for names that are non-empty and free of separators.", "quantifier": "every list of such names", "why_tests_cant": "All lists and names.", "anchors": [{"file": "libcomps/src/comps_utils.c", "symbol": "__comps_xml_arch_str"}, {"file": "libcomps/src/comps_elem.c", "symbol": "__comps_split_arches"}]}
{"id": "C38", "title": "Log messages fit their buffers", "statement": "Formatting a log entry writes exactly as many bytes as were allocated whenever the number of arguments equals the number of placeholders of its code.", "quantifier": "every log code and every argument texts", "why_tests_cant": "All argument lengths.", "anchors": [{"file": "libcomps/src/comps_log.c", "symbol": "comps_log_entry_str"}, {"file": "libcomps/src/comps_log.c", "symbol": "COMPS_LogCodeFormat"}]}
{"id": "C39", "title": "Element names and types correspond", "statement": "Looking up the type of an element name and the name of that type gives back the name; names outside the comps vocabulary are unknown.", "quantifier": "every string and every element type", "why_tests_cant": "All strings.", "anchors": [{"file": "libcomps/src/comps_elem.c", "symbol": "comps_elem_get_name"}, {"file": "libcomps/src/comps_elem.c", "symbol": "comps_elem_get_type"}]}
{"id": "C40", "title": "Document type setters set their own field", "statement": "Each of the document's doctype setters changes exactly the field it names.", "quantifier": "every document and every value", "why_tests_cant": "A frame property over all documents.", "anchors": [{"file": "libcomps/src/comps_doc.c", "symbol": "comps_doc_set_doctype_name"}, {"file": "libcomps/src/comps_doc.c", "symbol": "comps_doc_set_doctype_sysid"}, {"file": "libcomps/src/comps_doc.c", "symbol": "comps_doc_set_doctype_pubid"}]}
{"id": "C41", "title": "Comparison is an equivalence and copies are equal", "statement": "comps_object_cmp on packages, group ids, groups, categories, environments and documents is reflexive, symmetric and transitive on objects of one type, and every object equals its copy.", "quantifier": "every object, pair and triple of objects", "why_tests_cant": "A relational law over all triples.", "anchors": [{"file": "libcomps/src/comps_docgroup.c", "symbol": "comps_docgroup_cmp_u"}, {"file": "libcomps/src/comps_doccategory.c", "symbol": "comps_doccategory_cmp_u"}, {"file": "libcomps/src/comps_docenv.c", "symbol": "comps_docenv_cmp_u"}, {"file": "libcomps/src/comps_docpackage.c", "symbol": "comps_docpackage_cmp_u"}, {"file": "libcomps/src/comps_docgroupid.c", "symbol": "comps_docgroupid_cmp_u"}, {"file": "libcomps/src/comps_doc.c", "symbol": "comps_doc_cmp_u"}]}
{"id": "C42", "title": "Language packs survive copying and writing", "statement": "Writing the XML of a copy of a document emits the same language packs as writing the document itself.", "quantifier": "every document", "why_tests_cant": "A relation between two outputs for all documents.", "anchors": [{"file": "libcomps/src/comps_doc.c", "symbol": "comps_doc_copy"}, {"file": "libcomps/src/comps_doc.c", "symbol": "comps_doc_xml"}, {"file": "libcomps/src/comps_objradix.c", "symbol": "comps_objrtree_copy"}]}
{"id": "C43", "title": "Property setters and getters obey the record laws", "statement": "Any sequence of property setter calls on a group, category or environment leaves every getter returning the last value set for that property, NULL if none or if last unset.", "quantifier": "every finite sequence of setter calls", "why_tests_cant": "All sequences; all properties share one radix tree.", "anchors": [{"file": "libcomps/src/comps_utils.h", "symbol": "COMPS_STRPROP_SETTER"}, {"file": "libcomps/src/comps_utils.h", "symbol": "COMPS_NUMPROP_SETTER"}, {"file": "libcomps/src/comps_utils.h", "symbol": "COMPS_PROP_GETTER"}, {"file": "libcomps/src/comps_docgroup.c", "symbol": "comps_docgroup_set_def"}]}
{"id": "C44", "title": "Document entry lists accumulate", "statement": "Any sequence of comps_doc_add_group/category/environment calls leaves each of the three getters returning exactly the entries added to it, in order, independent of the other two lists.", "quantifier": "every finite sequence of add and get calls", "why_tests_cant": "All sequences; the three lists share one radix tree.", "anchors": [{"file": "libcomps/src/comps_doc.h", "symbol": "COMPS_DOC_ADDOBJLIST"}, {"file": "libcomps/src/comps_doc.h", "symbol": "COMPS_DOC_GETOBJLIST"}, {"file": "libcomps/src/comps_doc.h", "symbol": "COMPS_DOC_SETOBJLIST"}, {"file": "libcomps/src/comps_doc.c", "symbol": "comps_doc_groups"}, {"file": "libcomps/src/comps_doc.c", "symbol": "comps_doc_add_group"}]}
{"id": "C45", "title": "Numbers convert to their decimal text", "statement": "The text of a number object is its decimal representation, written within its buffer.", "quantifier": "every int value", "why_tests_cant": "2^32 values, with special cases at 0, powers of ten and negatives.", "anchors": [{"file": "libcomps/src/comps_obj.c", "symbol": "comps_num_tostr"}]}
{"id": "C46", "title": "List text is bracketed and comma separated, within its buffer", "statement": "The text of an object list is '[' followed by the element texts separated by ', ' and ']', and fits the buffer allocated for it.", "quantifier": "every list of objects", "why_tests_cant": "All lengths of elements and lists.", "anchors": [{"file": "libcomps/src/comps_objlist.c", "symbol": "comps_objlist_tostr_u"}]}
{"id": "C47", "title": "The iterator getter finds every position", "statement": "comps_objlist_get_it(list, k) returns the list cell at position k when k is below the length, and NULL otherwise.", "quantifier": "every list reachable by edits, every position", "why_tests_cant": "All lists and positions; the loop's exit test is inverted and no caller checks the result.", "anchors": [{"file": "libcomps/src/comps_objlist.c", "symbol": "comps_objlist_get_it"}]}
{"id": "C48", "title": "Insert-before puts the element before the iterator", "statement": "comps_objlist_insert_before(list, it, x) with it at position k gives the list with x inserted at position k, everything else unchanged.", "quantifier": "every list reachable by edits, every position", "why_tests_cant": "All lists and positions, including the first two, which take different branches.", "anchors": [{"file": "libcomps/src/comps_objlist.c", "symbol": "comps_objlist_insert_before"}]}
{"id": "C49", "title": "In-place concatenation appends the second list's elements", "statement": "comps_objlist_concat_in(a, b) ends, and leaves a with its old elements followed by b's, also if a and b are the same list; b is unchanged if it is another list.", "quantifier": "every pair of lists reachable by edits, also the same list twice", "why_tests_cant": "A termination claim over all lists; a test of the self case hangs.", "anchors": [{"file": "libcomps/src/comps_objlist.c", "symbol": "comps_objlist_concat_in"}]}
{"id": "C50", "title": "Removing a multi-dictionary key removes exactly that key", "statement": "comps_objmdict_unset(k) returns without fault; afterwards comps_objmdict_get(k) is NULL and every other key lists what it listed before.", "quantifier": "every reachable multi-dictionary and key", "why_tests_cant": "Depends on the shape of the tree, which depends on the whole history of writes.", "anchors": [{"file": "libcomps/src/comps_objmradix.c", "symbol": "comps_objmrtree_unset"}]}
{"id": "C51", "title": "A cleared multi-dictionary is empty and usable", "statement": "After comps_objmdict_clear every lookup returns NULL and the multi-dictionary can be used again.", "quantifier": "every reachable multi-dictionary and key", "why_tests_cant": "Reading freed memory often goes unnoticed in a test run.", "anchors": [{"file": "libcomps/src/comps_objmradix.c", "symbol": "comps_objmrtree_clear"}]}
{"id": "C52", "title": "Copying a multi-dictionary gives an equal one", "statement": "comps_objmdict_copy (and comps_object_copy of a multi-dictionary) succeeds and the copy lists the same values under the same keys.", "quantifier": "every reachable multi-dictionary", "why_tests_cant": "A claim about all contents; type confusion may not crash in a test.", "anchors": [{"file": "libcomps/src/comps_objmradix.c", "symbol": "comps_objmrtree_copy"}, {"file": "libcomps/src/comps_objmradix.c", "symbol": "comps_objmrtree_clone"}]}
{"id": "C53", "title": "Uniting multi-dictionaries concatenates per key", "statement": "After comps_objmrtree_unite(a, b) every key lists the objects a listed followed by those b listed.", "quantifier": "every pair of different reachable multi-dictionaries and key", "why_tests_cant": "All pairs of tree shapes; the result is built by an unbounded sequence of writes.", "anchors": [{"file": "libcomps/src/comps_objmradix.c", "symbol": "comps_objmrtree_unite"}]}
{"id": "C54", "title": "Overwriting a slot with the value it already holds is harmless", "statement": "Replacing element i of a list by the element borrowed from position i of the same list (read without retaining it) leaves the list as it was and the element alive; the same holds for the property setters built on the same replace step.", "quantifier": "every list reachable by the public calls, every position, every number of other references to the element", "why_tests_cant": "The outcome depends on how many other references exist; the failing case reads freed memory, which ordinary assertions do not see.", "anchors": [{"file": "libcomps/src/comps_objlist.c", "symbol": "comps_objlist_set"}, {"file": "libcomps/src/comps_objlist.c", "symbol": "comps_objlist_get_x"}, {"file": "libcomps/src/comps_obj.h", "symbol": "COMPS_OBJECT_REPLACE"}]}
{"id": "C55", "title": "A copied document is a usable document", "statement": "comps_object_copy of a document succeeds and the copy can be released like any other document.", "quantifier": "every document", "why_tests_cant": "The copy leaves fields uninitialised, so whether releasing it goes wrong depends on what the allocator returns; all documents are quantified.", "anchors": [{"file": "libcomps/src/comps_doc.c", "symbol": "comps_doc_copy"}, {"file": "libcomps/src/comps_doc.c", "symbol": "comps_doc_destroy"}, {"file": "libcomps/src/comps_objmradix.c", "symbol": "comps_objmrtree_copy"}]}
{"id": "C56", "title": "Setting the document language leaves the rest alone", "statement": "comps_doc_set_lang changes nothing that the getters for groups, categories, environments, language packs, black list and whiteout return.", "quantifier": "every document and every language", "why_tests_cant": "A frame property over all documents; loss depends on the shape of the dictionary inside.", "anchors": [{"file": "libcomps/src/comps_doc.c", "symbol": "comps_doc_set_lang"}, {"file": "libcomps/src/comps_objradix.c", "symbol": "__comps_objrtree_set"}]}
{"id": "C57", "title": "Combining documents keeps document-level parts", "statement": "A package black-listed, an ignored dependency or a document type that both operands have is also there in comps_doc_union and comps_doc_intersect of them, and those of a document are kept by comps_doc_arch_filter.", "quantifier": "every pair of documents", "why_tests_cant": "All pairs of documents.", "anchors": [{"file": "libcomps/src/comps_doc.c", "symbol": "comps_doc_union"}, {"file": "libcomps/src/comps_doc.c", "symbol": "comps_doc_intersect"}, {"file": "libcomps/src/comps_doc.c", "symbol": "comps_doc_arch_filter"}]}
{"id": "C58", "title": "The result of writing tells the truth", "statement": "comps2xml_f returns 0 exactly when every entry of the document was written completely; entries left out and text that could not be written make the result differ from 0.", "quantifier": "every document, every combination of options, every failure of the XML writer", "why_tests_cant": "The number of entries is unbounded (the result is a signed char) and a test cannot make the writer fail at every call.", "anchors": [{"file": "libcomps/src/comps_doc.c", "symbol": "comps2xml_f"}, {"file": "libcomps/src/comps_doc.c", "symbol": "comps_doc_xml"}, {"file": "libcomps/src/comps_utils.c", "symbol": "__comps_xml_prop"}]}
{"id": "C59", "title": "A parsed document is exactly what the file says", "statement": "Parsing a well-formed comps file gives a document whose groups, categories, environments, langpacks, blacklist, whiteout, encoding and doctype are those the file spells out, entry by entry and in order, and logs exactly one message for each irregularity (unknown element or attribute, missing or repeated property, empty list, stray text), in file order; the result code follows.", "quantifier": "every tree of elements under comps meeting the stated safety conditions, every cutting into buffers, every default options", "why_tests_cant": "Unbounded trees; the effect of an element depends on the open elements, on text pending and on what was read before.", "anchors": [{"file": "libcomps/src/comps_parse.c", "symbol": "comps_parse_start_elem_handler"}, {"file": "libcomps/src/comps_parse.c", "symbol": "comps_parse_end_elem_handler"}, {"file": "libcomps/src/comps_parse.c", "symbol": "comps_parse_file"}, {"file": "libcomps/src/comps_parse.c", "symbol": "comps_parse_str"}, {"file": "libcomps/src/comps_elem.c", "symbol": "COMPS_ElemInfos"}]}
{"id": "C60", "title": "Failing writes end the output and are logged", "statement": "Whatever calls of the XML writer fail, comps2xml_f and comps2xml_str do not fault. If starting the document type, the root, a group, category or environment, one of their lists, a language pack, black list or whiteout element, or writing a language attribute fails, nothing more is written but the ends of document type and document, the result is -1 and \"can't generate xml\" is logged; failures to start or end the document, a package or a group id or to write a basearchonly attribute are logged too. Otherwise every entry left out is logged and counted. comps2xml_str logs every result other than 0.", "quantifier": "every document, all options, every set of failing writer calls", "why_tests_cant": "A test cannot make the writer fail at each of unboundedly many calls, alone and combined.", "anchors": [{"file": "libcomps/src/comps_doc.c", "symbol": "comps2xml_f"}, {"file": "libcomps/src/comps_doc.c", "symbol": "comps2xml_str"}, {"file": "libcomps/src/comps_doc.c", "symbol": "comps_doc_xml"}, {"file": "libcomps/src/comps_docgroup.c", "symbol": "comps_docgroup_xml"}, {"file": "libcomps/src/comps_docpackage.c", "symbol": "comps_docpackage_xml"}]}
{"id": "C61", "title": "Validating a document reports exactly what is wrong with it", "statement": "comps_validate_execute with the rule tables of the library returns OK exactly when every group, category and environment has an id that is not empty and no package (name, required package, type) or group id (name, default) twice in a list; otherwise it returns one message for each violation, on the entry concerned, in document order, telling the list, the position of the entry, the rule and the two positions of a repeated element. Packages and group ids are valid exactly when they have a non-empty name.", "quantifier": "every document reachable through the API", "why_tests_cant": "Unbounded numbers of entries, members and violations; a test sees single violations.", "anchors": [{"file": "libcomps/src/comps_doc.c", "symbol": "COMPS_Doc_ValidateRules"}, {"file": "libcomps/src/comps_doc.c", "symbol": "comps_doc_listobjs_validate"}, {"file": "libcomps/src/comps_docgroup.c", "symbol": "COMPS_DocGroup_ValidateRules"}, {"file": "libcomps/src/comps_doccategory.c", "symbol": "COMPS_DocCategory_ValidateRules"}, {"file": "libcomps/src/comps_docenv.c", "symbol": "COMPS_DocEnv_ValidateRules"}, {"file": "libcomps/src/comps_validate.c", "symbol": "comps_validate_execute"}]}
{"id": "C62", "title": "Indexing a Python sequence", "statement": "seq[i] on a list of groups, categories, environments, packages or group ids returns the i-th element, counted from the end if i is negative, and raises IndexError outside of the list.", "quantifier": "every list of fewer than 2^31 elements, every index", "why_tests_cant": "Indices and lengths are unbounded; tests try a few near the ends.", "anchors": [{"file": "libcomps/src/python/src/pycomps_sequence.c", "symbol": "list_getitem"}, {"file": "libcomps/src/python/src/pycomps_sequence.c", "symbol": "PyCOMPSSeq_get"}]}
{"id": "C63", "title": "Assigning and deleting by index in a Python sequence", "statement": "seq[i] = x replaces exactly the i-th element and del seq[i] removes exactly the i-th element, counted from the end if i is negative; outside of the list IndexError is raised; where ids are unique, x is refused with KeyError exactly if another element has its id. Nothing else changes.", "quantifier": "every list, every index, every item", "why_tests_cant": "Tests try one or two indices; the effect on all other elements and the combination of index and id is not observed.", "anchors": [{"file": "libcomps/src/python/src/pycomps_sequence.c", "symbol": "list_setitem"}, {"file": "libcomps/src/python/src/pycomps_sequence.c", "symbol": "list_setitem_id_unique"}, {"file": "libcomps/src/python/src/pycomps_sequence.c", "symbol": "list_unique_id_check"}]}
{"id": "C64", "title": "Reading slices of a Python sequence", "statement": "seq[a:b:c] is a new sequence of exactly the elements a Python list gives for this slice, in that order, and seq is as before.", "quantifier": "every list, all bounds and steps, given or left out", "why_tests_cant": "Three unbounded numbers and a list; tests cover a handful of slices.", "anchors": [{"file": "libcomps/src/python/src/pycomps_sequence.c", "symbol": "list_get_slice"}]}
{"id": "C65", "title": "Deleting slices of a Python sequence", "statement": "del seq[a:b:c] removes exactly the elements of the slice, keeps the order of the others, and never crashes.", "quantifier": "every list, all bounds and steps", "why_tests_cant": "Freed memory often still reads well, so a test may pass on a broken deletion.", "anchors": [{"file": "libcomps/src/python/src/pycomps_sequence.c", "symbol": "list_set_slice"}]}
{"id": "C66", "title": "Assigning to slices of a Python sequence", "statement": "seq[a:b] = val replaces the elements of the slice by those of val, keeps the others and val; an id of val that another element of the list has is a KeyError that changes nothing.", "quantifier": "every list, all bounds, every value list of the same type", "why_tests_cant": "Outcome depends on the lengths of three lists and on ids; tests fix them.", "anchors": [{"file": "libcomps/src/python/src/pycomps_sequence.c", "symbol": "list_set_slice"}]}
{"id": "C67", "title": "No id twice in a Python sequence of groups, categories or environments", "statement": "Whatever sequence of append, insert, assignment, deletion, remove and clear a program performs on a new list, no two elements have the same id.", "quantifier": "every history of calls", "why_tests_cant": "A statement about all histories.", "anchors": [{"file": "libcomps/src/python/src/pycomps_sequence.c", "symbol": "PyCOMPSSeq_append_unique"}, {"file": "libcomps/src/python/src/pycomps_sequence.c", "symbol": "list_setitem_id_unique"}, {"file": "libcomps/src/python/src/pycomps_sequence.c", "symbol": "PyCOMPSSeq_insert"}]}
{"id": "C68", "title": "append, insert and remove of Python sequences", "statement": "append adds at the end, insert before the place meant by the index (the ends if out of range), remove takes out the first occurrence of the item or raises ValueError; an item that is not valid is refused with ValueError, an id already there with KeyError by append; a refused call changes nothing. For lists of group ids a string stands for the id.", "quantifier": "every list, every index and item", "why_tests_cant": "Unbounded lists and indices; the effect on all other elements.", "anchors": [{"file": "libcomps/src/python/src/pycomps_sequence.c", "symbol": "PyCOMPSSeq_append"}, {"file": "libcomps/src/python/src/pycomps_sequence.c", "symbol": "PyCOMPSSeq_append_unique"}, {"file": "libcomps/src/python/src/pycomps_sequence.c", "symbol": "PyCOMPSSeq_insert"}, {"file": "libcomps/src/python/src/pycomps_sequence.c", "symbol": "PyCOMPSSeq_remove"}]}
{"id": "C69", "title": "Looking up by id in a Python sequence", "statement": "seq['id'] is the first element with that id (name, for packages), and KeyError exactly if there is none.", "quantifier": "every list, every id", "why_tests_cant": "Which of several and the absence for all elements cannot be shown by samples.", "anchors": [{"file": "libcomps/src/python/src/pycomps_sequence.c", "symbol": "list_getitem_byid"}]}
{"id": "C70", "title": "Loops over Python sequences", "statement": "A for loop sees the elements in order, each once, and changing the list inside of the loop never makes the program crash.", "quantifier": "every list, every choice of elements taken out", "why_tests_cant": "Freed memory often still reads well.", "anchors": [{"file": "libcomps/src/python/src/pycomps_sequence.c", "symbol": "PyCOMPSSeq_getiter"}, {"file": "libcomps/src/python/src/pycomps_sequence.c", "symbol": "PyCOMPSSeq_iternext"}]}
{"id": "C71", "title": "Only valid members in a Python sequence", "statement": "Whatever sequence of append, insert, assignment, deletion, remove and clear a program performs on a new list of groups, categories or environments, every element passed the validation of its type when it was added.", "quantifier": "every history of calls", "why_tests_cant": "A statement about all histories.", "anchors": [{"file": "libcomps/src/python/src/pycomps_sequence.c", "symbol": "PyCOMPSSeq_append_unique"}, {"file": "libcomps/src/python/src/pycomps_sequence.c", "symbol": "PyCOMPSSeq_insert"}, {"file": "libcomps/src/python/src/pycomps_sequence.c", "symbol": "list_setitem_id_unique"}]}
{"id": "C72", "title": "Python string dictionaries are maps", "statement": "A program that makes string dictionaries (StrDict), writes, reads, copies, merges, clears, prints, compares and drops them gets from every call the answer that maps from text to text give.", "quantifier": "every program, any number of dictionaries, all keys and values", "why_tests_cant": "A statement about all histories over several dictionaries that share values; which keys disturb which depends on common prefixes.", "anchors": [{"file": "libcomps/src/python/src/pycomps_dict.c", "symbol": "PyCOMPSDict_set"}, {"file": "libcomps/src/python/src/pycomps_dict.c", "symbol": "PyCOMPSDict_get"}, {"file": "libcomps/src/python/src/pycomps_dict.c", "symbol": "PyCOMPSDict_get_"}, {"file": "libcomps/src/python/src/pycomps_dict.c", "symbol": "PyCOMPSDict_update"}, {"file": "libcomps/src/python/src/pycomps_dict.c", "symbol": "PyCOMPSDict_copy"}, {"file": "libcomps/src/python/src/pycomps_dict.c", "symbol": "PyCOMPSDict_str"}, {"file": "libcomps/src/python/src/pycomps_dict.c", "symbol": "PyCOMPSDict_cmp"}]}
{"id": "C73", "title": "Deleting from a Python string dictionary", "statement": "del d[k] removes exactly the key k, or raises KeyError if it is not there.", "quantifier": "every dictionary, every key", "why_tests_cant": "The absence of a crash for all dictionaries cannot be sampled.", "anchors": [{"file": "libcomps/src/python/src/pycomps_dict.c", "symbol": "PyCOMPSDict_set"}]}
{"id": "C74", "title": "Length of a Python string dictionary", "statement": "len(d) is the number of keys of d.", "quantifier": "every program, every dictionary in it", "why_tests_cant": "The count is kept apart from the tree; whether they agree depends on the whole history.", "anchors": [{"file": "libcomps/src/python/src/pycomps_dict.c", "symbol": "PyCOMPSDict_len"}]}
{"id": "C75", "title": "Python programs on string dictionaries do not crash", "statement": "No program that uses dictionaries of strings and their iterators reads freed memory or NULL.", "quantifier": "every program", "why_tests_cant": "Reading freed memory often gives the old contents, so tests pass.", "anchors": [{"file": "libcomps/src/python/src/pycomps_dict.c", "symbol": "PyCOMPSDict_iternext"}, {"file": "libcomps/src/python/src/pycomps_dict.c", "symbol": "PyCOMPSDict_values"}, {"file": "libcomps/src/python/src/pycomps_dict.c", "symbol": "PyCOMPSDict_items"}, {"file": "libcomps/src/python/src/pycomps_dict.c", "symbol": "PyCOMPSDict_str"}, {"file": "libcomps/src/python/src/pycomps_dict.c", "symbol": "PyCOMPSDict_set"}]}
{"id": "C76", "title": "String dictionaries leak nothing", "statement": "When a program has dropped all its dictionaries, every string stored in them was freed.", "quantifier": "every program", "why_tests_cant": "Leaks are not visible to tests, and depend on the history of shared values.", "anchors": [{"file": "libcomps/src/python/src/pycomps_dict.c", "symbol": "PyCOMPSDict_has_key"}, {"file": "libcomps/src/python/src/pycomps_dict.c", "symbol": "PyCOMPSDict_set"}, {"file": "libcomps/src/python/src/pycomps_dict.c", "symbol": "PyCOMPSDict_dealloc"}]}
{"id": "C77", "title": "Iterators of string dictionaries", "statement": "Iterating over d, d.values() or d.items() gives the keys, values or pairs d had when the iterator was made, each once, and then stops, whatever happens to d in the meantime.", "quantifier": "every program, every interleaving of iteration with other calls", "why_tests_cant": "Interleavings are unbounded.", "anchors": [{"file": "libcomps/src/python/src/pycomps_dict.c", "symbol": "PyCOMPSDict_getiter"}, {"file": "libcomps/src/python/src/pycomps_dict.c", "symbol": "PyCOMPSDict_keys"}, {"file": "libcomps/src/python/src/pycomps_dict.c", "symbol": "PyCOMPSDict_values"}, {"file": "libcomps/src/python/src/pycomps_dict.c", "symbol": "PyCOMPSDict_items"}, {"file": "libcomps/src/python/src/pycomps_dict.c", "symbol": "PyCOMPSDict_iternext"}]}
{"id": "C78", "title": "Failing calls on string dictionaries", "statement": "A call with arguments it does not accept raises TypeError, and a call that raises an exception leaves all dictionaries as they were.", "quantifier": "every state a program can reach, every call", "why_tests_cant": "What did not change in all the other dictionaries is not checked by tests.", "anchors": [{"file": "libcomps/src/python/src/pycomps_dict.c", "symbol": "PyCOMPSDict_set"}, {"file": "libcomps/src/python/src/pycomps_dict.c", "symbol": "PyCOMPSDict_get"}, {"file": "libcomps/src/python/src/pycomps_dict.c", "symbol": "PyCOMPSDict_get_"}, {"file": "libcomps/src/python/src/pycomps_dict.c", "symbol": "PyCOMPSDict_has_key"}, {"file": "libcomps/src/python/src/pycomps_dict.c", "symbol": "PyCOMPSDict_update"}]}
{"id": "C79", "title": "Comparing string dictionaries", "statement": "a == b is True exactly if a and b have the same keys with the same values, a != b is its negation; compared with anything else a dictionary is unequal.", "quantifier": "every state a program can reach", "why_tests_cant": "Equality of maps with trees of different shape, for all histories.", "anchors": [{"file": "libcomps/src/python/src/pycomps_dict.c", "symbol": "PyCOMPSDict_cmp"}]}
{"id": "C80", "title": "Strings come back from a dictionary as they went in", "statement": "After d[k] = v, d[k] is v, and str(d) shows exactly the keys and values that d.get gives.", "quantifier": "every state a program can reach, every key and value", "why_tests_cant": "Depends on all keys written before; text is unbounded.", "anchors": [{"file": "libcomps/src/python/src/pycomps_dict.c", "symbol": "PyCOMPSDict_set"}, {"file": "libcomps/src/python/src/pycomps_dict.c", "symbol": "PyCOMPSDict_get"}, {"file": "libcomps/src/python/src/pycomps_dict.c", "symbol": "PyCOMPSDict_str"}]}
{"id": "C81", "title": "Attributes of a Python document show what it holds", "statement": "At any time c.groups, c.categories, c.environments, c.langpacks, c.blacklist and c.whiteout give the list or dictionary that the document c holds: what is read from them is what xml_str writes, and what is added to them is in the document.", "quantifier": "every program, any number of documents and variables, every attribute", "why_tests_cant": "The attribute is cached in the Python object apart from the document; whether the cache agrees depends on the whole history of calls.", "anchors": [{"file": "libcomps/src/python/src/pycomps.c", "symbol": "PyCOMPS_get_"}, {"file": "libcomps/src/python/src/pycomps.c", "symbol": "PyCOMPS_set_"}, {"file": "libcomps/src/python/src/pycomps.c", "symbol": "PyCOMPS_clear"}]}
{"id": "C82", "title": "Memory management of Python documents cannot be seen", "statement": "A program that makes, loads, compares, merges, filters, clears and drops documents, and takes, assigns, shares and drops their lists, gets from every call the answer it would get if nothing were ever freed; no call reads freed memory.", "quantifier": "every program, except deleting attributes and comparing with other objects (C87)", "why_tests_cant": "Reference counts are spread over documents, Python wrappers, caches and variables; a use after free needs a particular history and often still gives the old contents.", "anchors": [{"file": "libcomps/src/python/src/pycomps.c", "symbol": "PyCOMPS_get_"}, {"file": "libcomps/src/python/src/pycomps.c", "symbol": "PyCOMPS_set_"}, {"file": "libcomps/src/python/src/pycomps.c", "symbol": "PyCOMPS_clear"}, {"file": "libcomps/src/python/src/pycomps.c", "symbol": "PyCOMPS_dealloc"}, {"file": "libcomps/src/python/src/pycomps.c", "symbol": "PyCOMPS_fromxml_str"}, {"file": "libcomps/src/python/src/pycomps.c", "symbol": "PyCOMPS_fromxml_f"}, {"file": "libcomps/src/python/src/pycomps.c", "symbol": "PyCOMPS_union"}]}
{"id": "C83", "title": "Loading a document from a string", "statement": "c.fromxml_str(text) either raises an exception and changes nothing, or replaces the document by what was read: attributes show the new contents, lists taken before keep their contents and are detached, other documents are not changed.", "quantifier": "every state a program can reach, every text", "why_tests_cant": "Quantifies over all aliasing between documents and variables before the call.", "anchors": [{"file": "libcomps/src/python/src/pycomps.c", "symbol": "PyCOMPS_fromxml_str"}]}
{"id": "C84", "title": "Loading a document from a file", "statement": "c.fromxml_f(name) either raises an exception and changes nothing, or replaces the document by what was read, as fromxml_str does.", "quantifier": "every state a program can reach, every file", "why_tests_cant": "Quantifies over all aliasing before the call and all ways a file can be cut into chunks.", "anchors": [{"file": "libcomps/src/python/src/pycomps.c", "symbol": "PyCOMPS_fromxml_f"}]}
{"id": "C85", "title": "The log belongs to the last load", "statement": "After c.fromxml_str or c.fromxml_f, c.get_last_log() gives the messages of that call.", "quantifier": "every state a program can reach, every text and file", "why_tests_cant": "Whether messages of an earlier load are left over depends on the history.", "anchors": [{"file": "libcomps/src/python/src/pycomps.c", "symbol": "PyCOMPS_fromxml_str"}, {"file": "libcomps/src/python/src/pycomps.c", "symbol": "PyCOMPS_fromxml_f"}, {"file": "libcomps/src/python/src/pycomps.c", "symbol": "PyCOMPS_get_last_log"}]}
{"id": "C86", "title": "Assigning an attribute shares the list", "statement": "After c.attr = v the list in v is that part of c, and is shared: a change through v or through c.attr is seen in both; nothing else changes. A list of another type is refused with TypeError and nothing changes.", "quantifier": "every state a program can reach, every attribute and variable", "why_tests_cant": "What must not change is everything else, in all states with all sharing.", "anchors": [{"file": "libcomps/src/python/src/pycomps.c", "symbol": "PyCOMPS_set_"}]}
{"id": "C87", "title": "Wrong uses of a Python document raise exceptions", "statement": "Deleting an attribute of a document, assigning a value of a wrong type to it, and comparing a document with an object of another type raise an exception or give False; they do not crash.", "quantifier": "every state a program can reach", "why_tests_cant": "The absence of undefined behaviour in all states cannot be sampled.", "anchors": [{"file": "libcomps/src/python/src/pycomps.c", "symbol": "PyCOMPS_set_"}, {"file": "libcomps/src/python/src/pycomps.c", "symbol": "PyCOMPS_cmp"}]}
{"id": "C88", "title": "Documents share only what was assigned", "statement": "Unless a program assigns attributes, a change to a list it holds is seen in at most one part of one document: loaded, added and filtered documents share nothing with others.", "quantifier": "every program without attribute assignment", "why_tests_cant": "Absence of sharing for all histories.", "anchors": [{"file": "libcomps/src/python/src/pycomps.c", "symbol": "PyCOMPS_get_"}, {"file": "libcomps/src/python/src/pycomps.c", "symbol": "PyCOMPS_union"}, {"file": "libcomps/src/python/src/pycomps.c", "symbol": "PyCOMPS_filter_arches"}, {"file": "libcomps/src/python/src/pycomps.c", "symbol": "PyCOMPS_fromxml_str"}]}
{"id": "C89", "title": "Python documents leak nothing", "statement": "When a program has dropped all its documents and lists, all of them are freed.", "quantifier": "every program", "why_tests_cant": "Leaks are not seen by tests; who still holds a reference depends on the history.", "anchors": [{"file": "libcomps/src/python/src/pycomps.c", "symbol": "PyCOMPS_dealloc"}, {"file": "libcomps/src/python/src/pycomps.c", "symbol": "PyCOMPS_get_"}, {"file": "libcomps/src/python/src/pycomps.c", "symbol": "PyCOMPS_set_"}]}
{"id": "C90", "title": "Clearing a Python document", "statement": "After c.clear() the document is as Comps() made it, with its old encoding and an empty log; lists held in variables and other documents do not change.", "quantifier": "every state a program can reach", "why_tests_cant": "Quantifies over all sharing before the call.", "anchors": [{"file": "libcomps/src/python/src/pycomps.c", "symbol": "PyCOMPS_clear"}]}
{"id": "C91", "title": "The two validations agree", "statement": "c.validate() returns if c.validate_nf() gives no messages, and raises ValueError with the first of them otherwise; neither changes anything.", "quantifier": "every state a program can reach", "why_tests_cant": "Relates two functions on all documents.", "anchors": [{"file": "libcomps/src/python/src/pycomps.c", "symbol": "PyCOMPS_validate"}, {"file": "libcomps/src/python/src/pycomps.c", "symbol": "PyCOMPS_validate_nf"}]}
{"id": "C92", "title": "Option dictionaries", "statement": "A dictionary given as xml_options or def_options sets exactly the options it names to the values it gives, all others keep their defaults; arguments that are no dictionary, or values of a wrong type, are refused with TypeError before anything is done; get_xml_default_options() gives the defaults.", "quantifier": "every dictionary, every state a program can reach", "why_tests_cant": "All combinations of 19 options, unknown keys and value types.", "anchors": [{"file": "libcomps/src/python/src/pycomps.c", "symbol": "__pycomps_dict_to_xml_opts"}, {"file": "libcomps/src/python/src/pycomps.c", "symbol": "__pycomps_dict_to_def_opts"}, {"file": "libcomps/src/python/src/pycomps.c", "symbol": "PyCOMPS_toxml_str"}, {"file": "libcomps/src/python/src/pycomps.c", "symbol": "PyCOMPS_toxml_f"}, {"file": "libcomps/src/python/src/pycomps.c", "symbol": "PyCOMPS_fromxml_str"}]}
{"id": "C93", "title": "Writing a document to a file from Python", "statement": "c.xml_f(name) returns the list of messages, which get_last_log() also gives; a file that could not be written is reported among them; if the XML could not be generated XMLGenError is raised.", "quantifier": "every state a program can reach, every failure of the XML writer and of the file system", "why_tests_cant": "Failures of the XML library cannot be provoked by tests.", "anchors": [{"file": "libcomps/src/python/src/pycomps.c", "symbol": "PyCOMPS_toxml_f"}, {"file": "libcomps/src/python/src/pycomps.c", "symbol": "PyCOMPS_get_last_log"}]}
{"id": "C94", "title": "Looking at a document does not change it", "statement": "Reading lists, comparing, validating, adding and filtering documents, and writing XML leave all documents, lists and logs as they were, except that xml_str adds its messages to the log and xml_f sets a missing encoding and replaces the log.", "quantifier": "every state a program can reach, every such call", "why_tests_cant": "What must not change is everything, in all states.", "anchors": [{"file": "libcomps/src/python/src/pycomps.c", "symbol": "PyCOMPS_cmp"}, {"file": "libcomps/src/python/src/pycomps.c", "symbol": "PyCOMPS_validate"}, {"file": "libcomps/src/python/src/pycomps.c", "symbol": "PyCOMPS_validate_nf"}, {"file": "libcomps/src/python/src/pycomps.c", "symbol": "PyCOMPS_union"}, {"file": "libcomps/src/python/src/pycomps.c", "symbol": "PyCOMPS_filter_arches"}, {"file": "libcomps/src/python/src/pycomps.c", "symbol": "PyCOMPS_toxml_str"}, {"file": "libcomps/src/python/src/pycomps.c", "symbol": "PyCOMPS_toxml_f"}]}
{"id": "C95", "title": "Sums and filtered documents are new documents", "statement": "c1 + c2 and c.arch_filter(arches) give a new document whose contents are the union, or the filtered contents, of the operands, with an empty log, and which shares no list with any other document or variable.", "quantifier": "every state a program can reach, all operands", "why_tests_cant": "Absence of sharing for all histories.", "anchors": [{"file": "libcomps/src/python/src/pycomps.c", "symbol": "PyCOMPS_union"}, {"file": "libcomps/src/python/src/pycomps.c", "symbol": "PyCOMPS_filter_arches"}]}
{"id": "C96", "title": "Python documents survive writing and reading", "statement": "After a.fromxml_str(b.xml_str()), or after b.xml_f(name) and a.fromxml_f(name), a == b is True and a shows the same contents as b.", "quantifier": "every state a program can reach, every document b with encoding UTF-8, every way the text is cut into pieces", "why_tests_cant": "Contents are unbounded, and reading depends on how the text is cut.", "anchors": [{"file": "libcomps/src/python/src/pycomps.c", "symbol": "PyCOMPS_toxml_str"}, {"file": "libcomps/src/python/src/pycomps.c", "symbol": "PyCOMPS_toxml_f"}, {"file": "libcomps/src/python/src/pycomps.c", "symbol": "PyCOMPS_fromxml_str"}, {"file": "libcomps/src/python/src/pycomps.c", "symbol": "PyCOMPS_fromxml_f"}, {"file": "libcomps/src/python/src/pycomps.c", "symbol": "PyCOMPS_cmp"}]}
{"id": "C97", "title": "Comparing Python documents", "statement": "a == b always answers and is True exactly if both documents show the same contents; it is reflexive, symmetric and transitive.", "quantifier": "every state a program can reach, all documents in it", "why_tests_cant": "Statement about all pairs and triples of documents.", "anchors": [{"file": "libcomps/src/python/src/pycomps.c", "symbol": "PyCOMPS_cmp"}]}
{"id": "C98", "title": "Attributes of Python entries are independent slots", "statement": "Every attribute of a Group, Category or Environment that holds one value reads what was last assigned to it (None takes a string or number back); assigning to one attribute leaves the others; a value of a wrong type raises TypeError.", "quantifier": "every object made through the API, every sequence of assignments of every length", "why_tests_cant": "Sequences of assignments are unbounded and the values lie in one shared dictionary whose shape depends on all earlier assignments.", "anchors": [{"file": "libcomps/src/python/src/pycomps_utils.c", "symbol": "__PyCOMPS_set_strattr"}, {"file": "libcomps/src/python/src/pycomps_utils.c", "symbol": "__PyCOMPS_get_strattr"}, {"file": "libcomps/src/python/src/pycomps_utils.c", "symbol": "__PyCOMPS_set_numattr"}, {"file": "libcomps/src/python/src/pycomps_groups.c", "symbol": "pycomps_group_boolattr_setter"}, {"file": "libcomps/src/python/src/pycomps_groups.c", "symbol": "pycomps_group_boolattr_getter"}]}
{"id": "C99", "title": "A refused assignment changes nothing", "statement": "An assignment to an attribute that raises an exception leaves the object as it was.", "quantifier": "every object, every attribute, every value", "why_tests_cant": "All values and states.", "anchors": [{"file": "libcomps/src/python/src/pycomps_utils.c", "symbol": "__PyCOMPS_set_numattr"}, {"file": "libcomps/src/python/src/pycomps_utils.c", "symbol": "__PyCOMPS_set_boolattr"}, {"file": "libcomps/src/python/src/pycomps_utils.c", "symbol": "__PyCOMPS_set_strattr"}]}
{"id": "C100", "title": "Attributes of packages and group ids are independent slots", "statement": "Every attribute of a Package or GroupId reads what was last assigned to it; None takes a value back; other attributes stay.", "quantifier": "every package and group id, every sequence of assignments", "why_tests_cant": "Sequences of assignments are unbounded.", "anchors": [{"file": "libcomps/src/python/src/pycomps_groups.c", "symbol": "PyCOMPSPack_getset"}, {"file": "libcomps/src/python/src/pycomps_gids.c", "symbol": "PyCOMPSGID_getset"}]}
{"id": "C101", "title": "Constructors set what they are given", "statement": "Group(...), Category(...), Environment(...), Package(...) and GroupId(...) raise exactly if an argument has a wrong type or does not fit, and otherwise give an object whose attributes read the arguments, and the defaults for those not given.", "quantifier": "all arguments", "why_tests_cant": "All combinations of arguments with unbounded values.", "anchors": [{"file": "libcomps/src/python/src/pycomps_groups.c", "symbol": "PyCOMPSGroup_init"}, {"file": "libcomps/src/python/src/pycomps_categories.c", "symbol": "PyCOMPSCat_init"}, {"file": "libcomps/src/python/src/pycomps_envs.c", "symbol": "PyCOMPSEnv_init"}, {"file": "libcomps/src/python/src/pycomps_groups.c", "symbol": "PyCOMPSPack_init"}, {"file": "libcomps/src/python/src/pycomps_gids.c", "symbol": "PyCOMPSGID_init"}]}
{"id": "C102", "title": "Equal Python objects have equal hashes", "statement": "Two groups, categories, environments, packages or group ids with a == b have hash(a) == hash(b).", "quantifier": "all pairs of objects made through the API", "why_tests_cant": "Statement about all pairs of objects.", "anchors": [{"file": "libcomps/src/python/src/pycomps_hash.c", "symbol": "PyCOMPS_hash"}, {"file": "libcomps/src/python/src/pycomps_groups.c", "symbol": "PyCOMPSPack_cmp"}, {"file": "libcomps/src/python/src/pycomps_groups.c", "symbol": "PyCOMPSGroup_cmp"}]}
{"id": "C103", "title": "hash() and str() are safe", "statement": "hash(x) and str(x) never leave a buffer; hash(x) is a number of 32 bits and str(x) of a group, category or environment is its id.", "quantifier": "all objects made through the API, texts and lists of all lengths", "why_tests_cant": "Buffer sizes are computed by hand from all parts; the parts are unbounded.", "anchors": [{"file": "libcomps/src/python/src/pycomps_hash.c", "symbol": "PyCOMPS_hash"}, {"file": "libcomps/src/python/src/pycomps_groups.c", "symbol": "PyCOMPSGroup_str"}]}
{"id": "C104", "title": "packages_match finds what was asked for", "statement": "g.packages_match(name=n, type=t) gives exactly the packages of the group with that name and type, in order; an argument left out does not restrict the search.", "quantifier": "all lists of packages, all names and types", "why_tests_cant": "Lists are unbounded.", "anchors": [{"file": "libcomps/src/python/src/pycomps_groups.c", "symbol": "PyCOMPSGroup_packages_match"}, {"file": "libcomps/src/python/src/pycomps_groups.c", "symbol": "__pycomps_pkg_type_check"}]}
{"id": "C105", "title": "Comparison operators of Python entries", "statement": "== answers whether the contents agree and != the opposite; nothing equals None; another type raises TypeError; orderings raise NotImplementedError; a group id equals a string exactly if it is a non-default id of that name.", "quantifier": "all objects, all other sides, all operators", "why_tests_cant": "Statement about all pairs.", "anchors": [{"file": "libcomps/src/python/src/pycomps_groups.c", "symbol": "PyCOMPSGroup_cmp"}, {"file": "libcomps/src/python/src/pycomps_categories.c", "symbol": "PyCOMPSCat_cmp"}, {"file": "libcomps/src/python/src/pycomps_envs.c", "symbol": "PyCOMPSEnv_cmp"}, {"file": "libcomps/src/python/src/pycomps_gids.c", "symbol": "PyCOMPSGID_cmp"}]}
{"id": "C106", "title": "Memory management cannot be seen from Python", "statement": "Whatever objects, lists and dictionaries a Python program makes, shares, stores in each other and deletes, it sees the results it would see if nothing were ever freed: an object that a variable, a list or an entry still holds is never freed or changed by deleting others, and no program uses freed memory.", "quantifier": "every program of calls on documents, groups, categories, environments, packages, group ids, their lists and dictionaries, of every length", "why_tests_cant": "Which references are taken and released depends on the whole history of sharing; programs are unbounded.", "anchors": [{"file": "libcomps/src/python/src/pycomps_utils.c", "symbol": "__PyCOMPS_get_ids"}, {"file": "libcomps/src/python/src/pycomps_utils.c", "symbol": "__PyCOMPS_set_ids"}, {"file": "libcomps/src/python/src/pycomps_utils.c", "symbol": "__PyCOMPS_set_dict"}, {"file": "libcomps/src/python/src/pycomps_sequence.c", "symbol": "PyCOMPSSeq_append"}, {"file": "libcomps/src/python/src/pycomps_sequence.c", "symbol": "list_getitem"}, {"file": "libcomps/src/comps_obj.c", "symbol": "comps_object_destroy"}]}
{"id": "C107", "title": "The same member got twice is one thing", "statement": "Getting a member of a list (by position or id), or a list of an entry, twice gives two Python objects that can be used for each other: changes through one are seen through the other.", "quantifier": "every program before, between and after, every member, every later call", "why_tests_cant": "Statement about all later calls in all states.", "anchors": [{"file": "libcomps/src/python/src/pycomps_sequence.c", "symbol": "list_getitem"}, {"file": "libcomps/src/python/src/pycomps_sequence.c", "symbol": "list_getitem_byid"}, {"file": "libcomps/src/python/src/pycomps_utils.c", "symbol": "__PyCOMPS_get_ids"}]}
{"id": "C108", "title": "A list assigned to an entry is shared, not copied", "statement": "After g.packages = l (or group_ids, option_ids) the attribute is the list l: changing one changes the other.", "quantifier": "every program before, between and after", "why_tests_cant": "Statement about all later calls in all states.", "anchors": [{"file": "libcomps/src/python/src/pycomps_utils.c", "symbol": "__PyCOMPS_set_ids"}, {"file": "libcomps/src/python/src/pycomps_utils.c", "symbol": "__PyCOMPS_get_ids"}]}
{"id": "C109", "title": "Translations assigned to an entry are read back", "statement": "After x.name_by_lang = d (or desc_by_lang) the attribute is d, whichever Python object for the entry it is read through.", "quantifier": "every program before and between", "why_tests_cant": "Depends on which Python objects for the same entry exist and what was assigned through each.", "anchors": [{"file": "libcomps/src/python/src/pycomps_utils.c", "symbol": "__PyCOMPS_set_dict"}, {"file": "libcomps/src/python/src/pycomps_utils.c", "symbol": "__PyCOMPS_get_dict"}]}
{"id": "C110", "title": "Everything is freed in the end", "statement": "Once a program has deleted all its variables, none of the objects it made is left in memory.", "quantifier": "every program of every length", "why_tests_cant": "Leaks are a matter of counts over whole histories.", "anchors": [{"file": "libcomps/src/python/src/pycomps_sequence.c", "symbol": "list_setitem"}, {"file": "libcomps/src/python/src/pycomps_sequence.c", "symbol": "PyCOMPSSeq_remove"}, {"file": "libcomps/src/python/src/pycomps_utils.c", "symbol": "__PyCOMPS_set_ids"}, {"file": "libcomps/src/comps_obj.c", "symbol": "comps_object_destroy"}]}
{"id": "C111", "title": "packages_match gives a new list of the same packages", "statement": "g.packages_match(...) gives a new list whose members are the group's own packages that match, in order; the group and all other objects stay as they are.", "quantifier": "every program before, every search", "why_tests_cant": "All lists of packages in all states of sharing.", "anchors": [{"file": "libcomps/src/python/src/pycomps_groups.c", "symbol": "PyCOMPSGroup_packages_match"}, {"file": "libcomps/src/comps_docgroup.c", "symbol": "comps_docgroup_get_packages"}]}
{"id": "C112", "title": "No program crashes the interpreter", "statement": "Whatever a Python program does with documents, entries, packages, group ids, lists and dictionaries, it gets results and exceptions and does not crash.", "quantifier": "every program of up to a billion calls", "why_tests_cant": "Programs are unbounded.", "anchors": [{"file": "libcomps/src/python/src/pycomps_sequence.c", "symbol": "list_setitem_id_unique"}, {"file": "libcomps/src/python/src/pycomps_sequence.c", "symbol": "list_unique_id_check"}, {"file": "libcomps/src/python/src/pycomps_utils.c", "symbol": "__PyCOMPS_set_numattr"}]}
{"id": "C113", "title": "Order of attributes and foreign attributes do not matter", "statement": "Two comps files that differ only in the order in which attributes are written, or in attributes comps does not define, are read to the same document with the same messages apart from those about unknown attributes.", "quantifier": "all files, all options, all places and sets of attributes", "why_tests_cant": "All files times all permutations of attributes; the attributes go through a dictionary whose layout depends on the names and their order.", "anchors": [{"file": "libcomps/src/comps_parse.c", "symbol": "comps_parse_start_elem_handler"}, {"file": "libcomps/src/comps_elem.c", "symbol": "comps_elem_create"}, {"file": "libcomps/src/comps_radix.c", "symbol": "__comps_rtree_set"}, {"file": "libcomps/src/comps_elem.c", "symbol": "comps_elem_packagereq_preproc"}]}
{"id": "C114", "title": "Every unknown attribute is reported once", "statement": "Reading a file gives exactly one message for each attribute that comps does not define, with the name of the attribute, the name of the element and its line and column.", "quantifier": "all files", "why_tests_cant": "All sets of attributes on all elements in all files.", "anchors": [{"file": "libcomps/src/comps_parse.c", "symbol": "comps_parse_check_attributes"}, {"file": "libcomps/src/comps_radix.c", "symbol": "comps_rtree_pairs"}, {"file": "libcomps/src/comps_parse.c", "symbol": "comps_parse_start_elem_handler"}]}
{"id": "C115", "title": "The plain dictionary destroys no pointer twice or too early", "statement": "Whatever is written to, removed from and cleared in a plain dictionary, with whatever callbacks, no pointer handed over is passed to the destructor twice, and none that can still be read has been passed to it.", "quantifier": "all histories of writes, writes with a length, removals and clearings; all keys; all callbacks", "why_tests_cant": "All histories times all shapes of the tree; a double free shows only for certain keys in a certain order.", "anchors": [{"file": "libcomps/src/comps_radix.c", "symbol": "__comps_rtree_set"}, {"file": "libcomps/src/comps_radix.c", "symbol": "comps_rtree_unset"}, {"file": "libcomps/src/comps_radix.c", "symbol": "comps_rtree_clear"}, {"file": "libcomps/src/comps_radix.c", "symbol": "comps_rtree_destroy"}]}
{"id": "C116", "title": "Everything handed to a plain dictionary is destroyed in the end", "statement": "When a plain dictionary with a destructor has been destroyed, every pointer that was ever handed to it has been passed to the destructor exactly once.", "quantifier": "all histories, all keys", "why_tests_cant": "All histories; a leak depends on the order in which keys that are prefixes of each other were written.", "anchors": [{"file": "libcomps/src/comps_radix.c", "symbol": "comps_rtree_destroy"}, {"file": "libcomps/src/comps_radix.c", "symbol": "comps_rtree_data_destroy"}, {"file": "libcomps/src/comps_radix.c", "symbol": "__comps_rtree_set"}]}
{"id": "C117", "title": "Plain dictionary and object dictionary behave alike", "statement": "A plain dictionary with a destructor and an object dictionary given the same writes and removals answer every read and every listing alike.", "quantifier": "all histories, all keys", "why_tests_cant": "Two separate implementations compared over all histories.", "anchors": [{"file": "libcomps/src/comps_radix.c", "symbol": "__comps_rtree_set"}, {"file": "libcomps/src/comps_radix.c", "symbol": "comps_rtree_unset"}, {"file": "libcomps/src/comps_radix.c", "symbol": "comps_rtree_get"}, {"file": "libcomps/src/comps_radix.c", "symbol": "__comps_rtree_all"}, {"file": "libcomps/src/comps_dict.c", "symbol": "comps_dict_set"}]}
{"id": "C118", "title": "A write with a length writes the first bytes", "statement": "A write to a plain dictionary with a length n has the effect of a write with the first n bytes of the string as key.", "quantifier": "all dictionaries, strings and lengths", "why_tests_cant": "All strings, all lengths and all contents of the dictionary.", "anchors": [{"file": "libcomps/src/comps_radix.c", "symbol": "comps_rtree_set_n"}, {"file": "libcomps/src/comps_radix.c", "symbol": "__comps_rtree_set"}]}
{"id": "C119", "title": "Union of plain dictionaries", "statement": "The union of two plain dictionaries has the keys of both, with clones of the values; for a key in both the first operand wins; each clone made is held by the result or destroyed, once.", "quantifier": "all pairs of dictionaries made by writes and removals, all cloners", "why_tests_cant": "All pairs of dictionaries, with all overlaps of keys and prefixes.", "anchors": [{"file": "libcomps/src/comps_radix.c", "symbol": "comps_rtree_union"}, {"file": "libcomps/src/comps_radix.c", "symbol": "comps_rtree_unite"}, {"file": "libcomps/src/comps_radix.c", "symbol": "comps_rtree_clone"}]}
{"id": "C120", "title": "A cleared plain dictionary is empty and usable", "statement": "Clearing a plain dictionary destroys each pointer it holds once; afterwards it is an empty dictionary that can be used.", "quantifier": "all dictionaries", "why_tests_cant": "All dictionaries and all uses afterwards; use of freed memory often goes unnoticed in a test.", "anchors": [{"file": "libcomps/src/comps_radix.c", "symbol": "comps_rtree_clear"}, {"file": "libcomps/src/comps_dict.c", "symbol": "comps_dict_destroy"}]}
{"id": "C121", "title": "A write or removal destroys exactly the value it takes out", "statement": "A write to a plain dictionary passes to the destructor the pointer it replaces and no other, and a removal the pointer it removes and no other.", "quantifier": "all dictionaries, all keys", "why_tests_cant": "All dictionaries and keys, with all overlaps of prefixes.", "anchors": [{"file": "libcomps/src/comps_radix.c", "symbol": "__comps_rtree_set"}, {"file": "libcomps/src/comps_radix.c", "symbol": "comps_rtree_unset"}, {"file": "libcomps/src/comps_radix.c", "symbol": "comps_rtree_data_destroy"}]}
{"id": "C122", "title": "A list assigned in an MDict is read back", "statement": "After m[k] = list on a libcomps.MDict, m[k] reads the strings of that list in order, whatever happened before; assigned from another entry, m[k] = n[l], it reads what n[l] read.", "quantifier": "all programs before, all keys, all lists of strings", "why_tests_cant": "All programs that build the dictionary times all keys and lists; the structure depends on the order and prefixes of earlier keys.", "anchors": [{"file": "libcomps/src/python/src/pycomps_mdict.c", "symbol": "PyCOMPSMDict_set"}, {"file": "libcomps/src/python/src/pycomps_mdict.c", "symbol": "PyCOMPSMDict_get"}, {"file": "libcomps/src/comps_objmradix.c", "symbol": "comps_objmrtree_set"}, {"file": "libcomps/src/comps_objmradix.c", "symbol": "comps_objmrtree_unset"}]}
{"id": "C123", "title": "Assigning one key of an MDict leaves the others alone", "statement": "m[k] = list changes what k reads and what no other key reads, neither in m nor in another dictionary, and makes no other key.", "quantifier": "all programs before, all keys, all values", "why_tests_cant": "Depends on how the keys overlap: all sets of keys in all orders.", "anchors": [{"file": "libcomps/src/python/src/pycomps_mdict.c", "symbol": "PyCOMPSMDict_set"}, {"file": "libcomps/src/comps_objmradix.c", "symbol": "comps_objmrtree_set"}]}
{"id": "C124", "title": "Programs using MDict do not crash", "statement": "No sequence of MDict calls (assignment, deletion, reading, appending, listing, comparison, str, update, copy, clear) reads freed or invalid memory or fails to end.", "quantifier": "all programs over any number of dictionaries", "why_tests_cant": "All programs; use of freed memory often goes unnoticed in a test.", "anchors": [{"file": "libcomps/src/python/src/pycomps_mdict.c", "symbol": "PyCOMPSMDict_set"}, {"file": "libcomps/src/python/src/pycomps_mdict.c", "symbol": "PyCOMPSMDict_str"}, {"file": "libcomps/src/python/src/pycomps_mdict.c", "symbol": "PyCOMPSMDict_clear"}, {"file": "libcomps/src/python/src/pycomps_mdict.c", "symbol": "PyCOMPSMDict_copy"}, {"file": "libcomps/src/python/src/pycomps_mdict.c", "symbol": "PyCOMPSMDict_update"}, {"file": "libcomps/src/python/src/pycomps_mdict.c", "symbol": "PyCOMPSMDict_values"}, {"file": "libcomps/src/python/src/pycomps_mdict.c", "symbol": "PyCOMPSMDict_items"}]}
{"id": "C125", "title": "len of an MDict", "statement": "len(m) is the number of keys of m, and assignment and deletion change it accordingly.", "quantifier": "all programs, all keys and lists", "why_tests_cant": "A counter kept beside the tree over all histories.", "anchors": [{"file": "libcomps/src/python/src/pycomps_mdict.c", "symbol": "PyCOMPSMDict_set"}, {"file": "libcomps/src/comps_objmradix.c", "symbol": "comps_objmrtree_set"}, {"file": "libcomps/src/comps_objmradix.c", "symbol": "comps_objmrtree_unset"}]}
{"id": "C126", "title": "update of an MDict", "statement": "m.update(n) overwrites the pairs of m whose keys are in n, adds the others of n, and leaves n unchanged.", "quantifier": "all pairs of dictionaries made by programs", "why_tests_cant": "All pairs of dictionaries, with all overlaps of keys and prefixes.", "anchors": [{"file": "libcomps/src/python/src/pycomps_mdict.c", "symbol": "PyCOMPSMDict_update"}, {"file": "libcomps/src/comps_objmradix.c", "symbol": "comps_objmrtree_set"}]}
{"id": "C127", "title": "Listings of an MDict agree with reading it", "statement": "list(m) has every key once and only keys m.has_key knows; m.items() has every key once with what m[k] reads; only keys that were assigned are listed.", "quantifier": "all programs before", "why_tests_cant": "All dictionaries, in all shapes.", "anchors": [{"file": "libcomps/src/python/src/pycomps_mdict.c", "symbol": "PyCOMPSMDict_getiter"}, {"file": "libcomps/src/python/src/pycomps_mdict.c", "symbol": "PyCOMPSMDict_items"}, {"file": "libcomps/src/python/src/pycomps_mdict.c", "symbol": "__pycomps_mdict_pair_out"}, {"file": "libcomps/src/comps_objmradix.c", "symbol": "comps_objmrtree_pairs"}]}
{"id": "C128", "title": "Reading a missing key of an MDict", "statement": "m.get(k) gives the list when m.has_key(k), and None otherwise.", "quantifier": "all programs before, all keys", "why_tests_cant": "All dictionaries and all keys.", "anchors": [{"file": "libcomps/src/python/src/pycomps_mdict.c", "symbol": "PyCOMPSMDict_get"}, {"file": "libcomps/src/python/src/pycomps_mdict.c", "symbol": "PyCOMPSMDict_has_key"}]}
{"id": "C129", "title": "Comparison of MDicts", "statement": "m == n exactly when m and n have the same keys with equal lists.", "quantifier": "all pairs of dictionaries made by programs", "why_tests_cant": "All pairs of dictionaries.", "anchors": [{"file": "libcomps/src/python/src/pycomps_mdict.c", "symbol": "PyCOMPSMDict_cmp"}, {"file": "libcomps/src/comps_objmradix.c", "symbol": "comps_objmrtree_paircmp"}]}
{"id": "C130", "title": "Merging two groups, categories or environments leaks nothing", "statement": "When the result of comps_docgroup_union, comps_doccategory_union or comps_docenv_union is destroyed, every package or id has as many owners as before the merge: nothing is left that nobody can free.", "quantifier": "all pairs of lists of packages, ids or options, with all overlaps and repetitions of names, in any valid memory", "why_tests_cant": "A leak has no visible effect in a test; it depends on which names repeat in which list.", "anchors": [{"file": "libcomps/src/comps_docgroup.c", "symbol": "comps_docgroup_union"}, {"file": "libcomps/src/comps_doccategory.c", "symbol": "comps_doccategory_union"}, {"file": "libcomps/src/comps_docenv.c", "symbol": "comps_docenv_union"}]}
{"id": "C131", "title": "Merging two documents leaks nothing", "statement": "comps_doc_union ends without a memory fault, leaves the entries of both documents as they are, gives a document of new entries, and when that is destroyed nothing is left behind.", "quantifier": "all pairs of lists of groups, categories or environments made through the API", "why_tests_cant": "All pairs of documents with all repetitions of ids; leaks are invisible.", "anchors": [{"file": "libcomps/src/comps_doc.c", "symbol": "comps_doc_union"}]}
{"id": "C132", "title": "The sum of two lists of entries has each entry once", "statement": "a + b of two libcomps.GroupList, CategoryList or EnvList has the entries of a in order, those whose id b has too merged with b's entry, then the other entries of b; each id of the operands is there once.", "quantifier": "all pairs of lists of entries made through the API", "why_tests_cant": "All pairs of lists with all overlaps and repetitions of ids.", "anchors": [{"file": "libcomps/src/python/src/pycomps_groups.c", "symbol": "comps_groups_union"}, {"file": "libcomps/src/python/src/pycomps_categories.c", "symbol": "comps_cats_union"}, {"file": "libcomps/src/python/src/pycomps_envs.c", "symbol": "comps_envs_union"}]}
{"id": "C133", "title": "The sum of two lists is independent of its operands", "statement": "Changing an entry of a + b changes no entry of a or b.", "quantifier": "all pairs of lists of entries, all changes", "why_tests_cant": "Depends on which entries are the same objects, for all lists.", "anchors": [{"file": "libcomps/src/python/src/pycomps_groups.c", "symbol": "comps_groups_union"}, {"file": "libcomps/src/python/src/pycomps_categories.c", "symbol": "comps_cats_union"}, {"file": "libcomps/src/python/src/pycomps_envs.c", "symbol": "comps_envs_union"}]}
{"id": "C134", "title": "Sums of lists leak nothing", "statement": "When a + b is deleted, every entry has as many owners as before the sum was made.", "quantifier": "all pairs of lists of entries in any valid memory", "why_tests_cant": "A leak has no visible effect in a test; it depends on which ids repeat.", "anchors": [{"file": "libcomps/src/python/src/pycomps_groups.c", "symbol": "comps_groups_union"}, {"file": "libcomps/src/python/src/pycomps_categories.c", "symbol": "comps_cats_union"}, {"file": "libcomps/src/python/src/pycomps_envs.c", "symbol": "comps_envs_union"}]}
{"id": "C135", "title": "The sum of two package lists is the package list of the merged group", "statement": "a.packages + b.packages holds the packages that (a + b).packages holds.", "quantifier": "all pairs of package lists", "why_tests_cant": "All pairs of lists, all attributes of the packages of the same name.", "anchors": [{"file": "libcomps/src/python/src/pycomps_groups.c", "symbol": "comps_pkgs_union"}, {"file": "libcomps/src/python/src/pycomps_groups.c", "symbol": "PyCOMPSPacks_union"}, {"file": "libcomps/src/comps_docgroup.c", "symbol": "comps_docgroup_union"}]}
{"id": "C136", "title": "Adding something of another type raises TypeError", "statement": "x + y where one operand is a libcomps object with + and the other is anything else raises TypeError, and does nothing else.", "quantifier": "all pairs of operands", "why_tests_cant": "All pairs of types on both sides.", "anchors": [{"file": "libcomps/src/python/src/pycomps.c", "symbol": "PyCOMPS_union"}, {"file": "libcomps/src/python/src/pycomps_groups.c", "symbol": "PyCOMPSGroup_union"}, {"file": "libcomps/src/python/src/pycomps_groups.c", "symbol": "PyCOMPSGroups_union"}, {"file": "libcomps/src/python/src/pycomps_groups.c", "symbol": "PyCOMPSPacks_union"}, {"file": "libcomps/src/python/src/pycomps_categories.c", "symbol": "PyCOMPSCats_union"}, {"file": "libcomps/src/python/src/pycomps_envs.c", "symbol": "PyCOMPSEnvs_union"}]}
{"id": "C137", "title": "In-place merge prefers the second operand", "statement": "After comps_objrtree_unite(a, b), a looks up k as b does when b has k, otherwise as a did before.", "quantifier": "every pair of dictionaries built through the API and every key", "why_tests_cant": "Depends on the shapes of both trees, which depend on their histories.", "anchors": [{"file": "libcomps/src/comps_objradix.c", "symbol": "comps_objrtree_unite"}]}
{"id": "C138", "title": "validate_nf reports every problem", "statement": "c.validate_nf() gives one message for every missing or empty id and for every package or group id that is in a list twice, and no other message.", "quantifier": "every document of every Python program, with fewer than 2^64 entries of each kind and up to 10^9 members in an entry", "why_tests_cant": "All documents; also which of many problems are reported.", "anchors": [{"file": "libcomps/src/python/src/pycomps.c", "symbol": "PyCOMPS_validate_nf"}]}
{"id": "C139", "title": "What was parsed can be used", "statement": "Whatever files and strings a parser was given, well-formed or broken off anywhere, if parsing came to an end (C29), the document it holds has an encoding and no missing list, and it can be compared, merged and intersected with any other such document, validated and destroyed without a memory fault.", "quantifier": "every sequence of calls of the parsing functions on every input, every two parsers", "why_tests_cant": "All inputs, also malformed ones; what is left in the parser depends on where the input breaks.", "anchors": [{"file": "libcomps/src/comps_parse.c", "symbol": "comps_parse_file"}, {"file": "libcomps/src/comps_parse.c", "symbol": "comps_parse_str"}, {"file": "libcomps/src/comps_parse.c", "symbol": "comps_parse_start_elem_handler"}, {"file": "libcomps/src/comps_parse.c", "symbol": "comps_parse_end_elem_handler"}, {"file": "libcomps/src/comps_doc.c", "symbol": "comps_doc_union"}, {"file": "libcomps/src/comps_doc.c", "symbol": "comps_doc_intersect"}, {"file": "libcomps/src/comps_doc.c", "symbol": "comps_doc_cmp_u"}]}
{"id": "C140", "title": "Python programs do not crash the interpreter", "statement": "A Python program that makes, loads, edits, compares, merges, filters, validates and writes documents never crashes the interpreter: every call returns or raises an exception, whatever calls were made before.", "quantifier": "every program of calls on documents and their lists, every XML file or string given to it", "why_tests_cant": "Which call crashes depends on the whole history of the program and on the content of the documents; both are unbounded.", "anchors": [{"file": "libcomps/src/python/src/pycomps.c", "symbol": "PyCOMPS_union"}, {"file": "libcomps/src/python/src/pycomps.c", "symbol": "PyCOMPS_validate"}, {"file": "libcomps/src/python/src/pycomps.c", "symbol": "PyCOMPS_validate_nf"}, {"file": "libcomps/src/python/src/pycomps.c", "symbol": "PyCOMPS_toxml_f"}, {"file": "libcomps/src/python/src/pycomps.c", "symbol": "PyCOMPS_toxml_str"}, {"file": "libcomps/src/python/src/pycomps.c", "symbol": "PyCOMPS_fromxml_f"}, {"file": "libcomps/src/python/src/pycomps.c", "symbol": "PyCOMPS_set_"}, {"file": "libcomps/src/python/src/pycomps.c", "symbol": "PyCOMPS_cmp"}]}
{"id": "C141", "title": "get_last_log() gives every message, complete and in order", "statement": "After any calls on a document, get_last_log() returns one text for each problem recorded, in the order in which they were recorded; each text is the message for the kind of problem with all its particulars (element names, ids, line and column) filled in, none cut off and none missing. It never crashes on what loading or writing recorded.", "quantifier": "every program of calls on documents, every input, every number and kind of recorded problems", "why_tests_cant": "The buffers are measured from the texts of the arguments, of unbounded size; which entries a log holds depends on the history of the program.", "anchors": [{"file": "libcomps/src/comps_log.c", "symbol": "comps_log_entry_str"}, {"file": "libcomps/src/python/src/pycomps.c", "symbol": "PyCOMPS_get_last_log"}, {"file": "libcomps/src/comps_parse.c", "symbol": "comps_parse_start_elem_handler"}, {"file": "libcomps/src/comps_doc.c", "symbol": "comps2xml_f"}]}
{"id": "C142", "title": "get_last_errors() gives exactly the errors", "statement": "get_last_errors() returns the messages of the recorded problems that are errors, complete and in order, and no messages of warnings.", "quantifier": "every program of calls on documents, every input", "why_tests_cant": "Which mixture of errors and warnings a log holds depends on the input and the history.", "anchors": [{"file": "libcomps/src/python/src/pycomps.c", "symbol": "PyCOMPS_get_last_errors"}, {"file": "libcomps/src/comps_log.c", "symbol": "comps_log_error_x"}, {"file": "libcomps/src/comps_log.c", "symbol": "comps_log_warning_x"}, {"file": "libcomps/src/comps_elem.c", "symbol": "__comps_check_allready_set"}]}
{"id": "C143", "title": "Messages name what they are about", "statement": "A message about an entry that was left out when writing says which kind of entry it was and its id; a message about an element of the input names that element.", "quantifier": "every document, every options for writing, every input", "why_tests_cant": "Depends on which entries of an unbounded document are left out and on arbitrary ids and elements.", "anchors": [{"file": "libcomps/src/comps_docgroup.c", "symbol": "comps_docgroup_xml"}, {"file": "libcomps/src/comps_doccategory.c", "symbol": "comps_doccategory_xml"}, {"file": "libcomps/src/comps_docenv.c", "symbol": "comps_docenv_xml"}, {"file": "libcomps/src/comps_elem.c", "symbol": "comps_elem_display_order_postproc"}, {"file": "libcomps/src/comps_elem.c", "symbol": "comps_elem_uservisible_postproc"}]}
{"id": "C144", "title": "Searching a Python document gives its own entries", "statement": "c.groups_match(...), c.categories_match(...) and c.environments_match(...) give a new list whose members are the document's own entries that fit every argument given (id, name and description as patterns, in the language given), in order; they are the members of c.groups that fit. No entry, list or document is changed. Arguments that are not texts raise an exception.", "quantifier": "every program before, every document, every search, every matching function", "why_tests_cant": "All documents in all states of sharing, all patterns and languages.", "anchors": [{"file": "libcomps/src/python/src/pycomps.c", "symbol": "PyCOMPS_groups_match"}, {"file": "libcomps/src/python/src/pycomps.c", "symbol": "PyCOMPS_categories_match"}, {"file": "libcomps/src/python/src/pycomps.c", "symbol": "PyCOMPS_envs_match"}, {"file": "libcomps/src/comps_doc.c", "symbol": "comps_doc_get_groups"}]}
{"id": "C145", "title": "A document's attribute is one object", "statement": "c.groups is the same Python object each time it is read, and after c.groups = l it is l itself, until an attribute of that name is assigned.", "quantifier": "every program before and between, with documents, entries and lists shared in any way", "why_tests_cant": "Statement about all states; the object is kept by the document and counted by its variables.", "anchors": [{"file": "libcomps/src/python/src/pycomps.c", "symbol": "PyCOMPS_get_"}, {"file": "libcomps/src/python/src/pycomps.c", "symbol": "PyCOMPS_set_"}]}
{"id": "C146", "title": "validate() and append() agree on what is valid", "statement": "x.validate() of a package, group id, group, category or environment returns exactly if it has a name (an id) that is not empty and no two equal members in its lists, and raises ValueError otherwise; l.append(x) adds x exactly if validate passes and, in lists of entries, no member has its id. Neither changes anything else.", "quantifier": "every program before, every object", "why_tests_cant": "Depends on all members and on what they share.", "anchors": [{"file": "libcomps/src/python/src/pycomps_utils.c", "symbol": "__pycomps_validate_process"}, {"file": "libcomps/src/python/src/pycomps_groups.c", "symbol": "pycomps_group_validate"}, {"file": "libcomps/src/python/src/pycomps_groups.c", "symbol": "pycomps_package_validate"}, {"file": "libcomps/src/python/src/pycomps_sequence.c", "symbol": "PyCOMPSSeq_append_unique"}, {"file": "libcomps/src/comps_validate.c", "symbol": "comps_empty_check"}]}
{"id": "C147", "title": "A binary dictionary with keys of one length is a map", "statement": "If all keys given to comps_brtree_set have the same length, comps_brtree_get of any key gives the value set last for it, NULL if there is none, and comps_brtree_pairs, _keys and _values list every key that has a value exactly once, with that value.", "quantifier": "every list of keys of one length not 0 (bytes of any value) and values, every constructor", "why_tests_cant": "The tree depends on all common parts of all keys and on their order; there are unboundedly many.", "anchors": [{"file": "libcomps/src/comps_bradix.c", "symbol": "comps_brtree_set"}, {"file": "libcomps/src/comps_bradix.c", "symbol": "comps_brtree_get"}, {"file": "libcomps/src/comps_bradix.c", "symbol": "__comps_brtree_all"}, {"file": "libcomps/src/comps_bradix.c", "symbol": "comps_brtree_values"}]}
{"id": "C148", "title": "A binary dictionary destroys every value once", "statement": "With keys of one length, every pointer given to the dictionary is passed to the destructor exactly once by the time the dictionary has been destroyed, and none that is still listed has been passed to it.", "quantifier": "every history of comps_brtree_set and comps_brtree_unset that runs to its end", "why_tests_cant": "A conservation law over all histories.", "anchors": [{"file": "libcomps/src/comps_bradix.c", "symbol": "comps_brtree_set"}, {"file": "libcomps/src/comps_bradix.c", "symbol": "comps_brtree_unset"}, {"file": "libcomps/src/comps_bradix.c", "symbol": "comps_brtree_destroy"}, {"file": "libcomps/src/comps_bradix.c", "symbol": "comps_brtree_data_destroy"}]}
{"id": "C149", "title": "A binary dictionary is a map for all keys", "statement": "What C147 and C148 say holds for keys of any length, empty ones and ones that begin with one another too.", "quantifier": "every history", "why_tests_cant": "Depends on the order in which keys that begin with one another are written.", "anchors": [{"file": "libcomps/src/comps_bradix.c", "symbol": "comps_brtree_set"}, {"file": "libcomps/src/comps_bradix.c", "symbol": "comps_brtree_get"}]}
{"id": "C150", "title": "A removal from a binary dictionary removes that key", "statement": "comps_brtree_unset removes the key given, destroys its value, and leaves all other keys as they are; it does nothing if the key is not there.", "quantifier": "every history before, every key (a C string)", "why_tests_cant": "Statement about all other keys in all states.", "anchors": [{"file": "libcomps/src/comps_bradix.c", "symbol": "comps_brtree_unset"}]}
{"id": "C151", "title": "A copy of a binary dictionary reads like the original", "statement": "comps_brtree_clone gives a dictionary in which every key has a copy of the value it has in the original, and calls the cloner only with values that were stored.", "quantifier": "every history before, every cloner", "why_tests_cant": "Depends on the shape of the tree, which depends on all keys.", "anchors": [{"file": "libcomps/src/comps_bradix.c", "symbol": "comps_brtree_clone"}]}
{"id": "C152", "title": "A binary dictionary can be cleared", "statement": "comps_brtree_clear destroys every value that the dictionary holds exactly once, and leaves an empty dictionary that can be used and destroyed like a new one.", "quantifier": "every dictionary, every later call", "why_tests_cant": "The state after clearing is only visible in what later calls do, for all later calls.", "anchors": [{"file": "libcomps/src/comps_bradix.c", "symbol": "comps_brtree_clear"}]}
{"id": "C153", "title": "A plain multi-dictionary collects the values of a key", "statement": "After any writes with comps_mdict_set, comps_mdict_get gives for every key the values written under it, in the order in which they were written, and NULL for a key that was not written.", "quantifier": "every list of writes, every key, every constructor", "why_tests_cant": "Depends on how the keys written share prefixes, in every order of writes.", "anchors": [{"file": "libcomps/src/comps_mradix.c", "symbol": "comps_mrtree_set"}, {"file": "libcomps/src/comps_mradix.c", "symbol": "comps_mrtree_set_n"}, {"file": "libcomps/src/comps_mradix.c", "symbol": "comps_mrtree_get"}, {"file": "libcomps/src/comps_mradix.c", "symbol": "comps_mrtree_getp"}, {"file": "libcomps/src/comps_dict.c", "symbol": "comps_mdict_set"}, {"file": "libcomps/src/comps_dict.c", "symbol": "comps_mdict_get"}]}
{"id": "C154", "title": "The listings of a plain multi-dictionary are complete", "statement": "comps_mdict_keys lists every key that has a value once and no other; the values walk passes on every value that was written, and only those.", "quantifier": "every list of writes", "why_tests_cant": "Completeness over all trees that writes can make.", "anchors": [{"file": "libcomps/src/comps_mradix.c", "symbol": "comps_mrtree_keys"}, {"file": "libcomps/src/comps_mradix.c", "symbol": "comps_mrtree_values_walk"}, {"file": "libcomps/src/comps_dict.c", "symbol": "comps_mdict_keys"}, {"file": "libcomps/src/comps_dict.c", "symbol": "comps_mdict_values_walk"}]}
{"id": "C155", "title": "A plain multi-dictionary destroys each value once", "statement": "Every pointer that a multi-dictionary with a destructor was given is passed to the destructor once: when its key is removed or when the dictionary is destroyed. A pointer that is still listed has not been destroyed.", "quantifier": "every history of writes and removals", "why_tests_cant": "Ownership of all pointers in all histories.", "anchors": [{"file": "libcomps/src/comps_mradix.c", "symbol": "comps_mrtree_destroy"}, {"file": "libcomps/src/comps_mradix.c", "symbol": "comps_mrtree_unset"}, {"file": "libcomps/src/comps_mradix.c", "symbol": "comps_mrtree_data_destroy"}]}
{"id": "C156", "title": "A removal from a plain multi-dictionary removes that key", "statement": "comps_mdict_unset removes the key and destroys its values, and leaves every other key as it is; it does nothing if the key is not there. comps_mdict_clear destroys all values and leaves an empty dictionary.", "quantifier": "every history before, every key", "why_tests_cant": "Statement about all other keys in all states.", "anchors": [{"file": "libcomps/src/comps_mradix.c", "symbol": "comps_mrtree_unset"}, {"file": "libcomps/src/comps_mradix.c", "symbol": "comps_mrtree_clear"}]}
{"id": "C157", "title": "Copies and unions of plain multi-dictionaries", "statement": "comps_mdict_clone gives a dictionary in which every key has the copies of the values of the original, in order, and which owns the copies. comps_mdict_unite adds to every key of the first dictionary the values the key has in the second, in order; the dictionaries do not share values.", "quantifier": "every two dictionaries, every constructor and cloner", "why_tests_cant": "Depends on the shape of both trees.", "anchors": [{"file": "libcomps/src/comps_mradix.c", "symbol": "comps_mrtree_clone"}, {"file": "libcomps/src/comps_mradix.c", "symbol": "comps_mrtree_unite"}, {"file": "libcomps/src/comps_dict.c", "symbol": "comps_mdict_clone"}, {"file": "libcomps/src/comps_dict.c", "symbol": "comps_mdict_unite"}]}
{"id": "C158", "title": "Walking through a list visits the rest of the list once", "statement": "Calling comps_objlist_walk with an iterator at some position of a list, until it says it is at the end, gives the objects of the list from that position on, each once and in order, and ends.", "quantifier": "every history of edits of any number of lists, every list, every starting position", "why_tests_cant": "Ranges over all histories of list edits and all positions; depends on every edit leaving the links right.", "anchors": [{"file": "libcomps/src/comps_objlist.c", "symbol": "comps_objlist_walk"}]}
{"id": "C159", "title": "Walking through a part of a list visits that part once", "statement": "Calling comps_objlist_walk_r with a start and an end position, until it says it is at the end, gives the objects between the two positions, each once and in order, and ends.", "quantifier": "every history of edits, every list, every two positions", "why_tests_cant": "Ranges over all lists and positions, and is about termination.", "anchors": [{"file": "libcomps/src/comps_objlist.c", "symbol": "comps_objlist_walk_r"}]}
{"id": "C160", "title": "Python lists compare by their members", "statement": "For lists of groups, categories, environments, packages, group ids or strings, == is true exactly if the other side is a list of the same class and length with equal members at every position; it is an equivalence, != is its negation, and <, <=, >, >= raise an exception. Comparing with anything else is false and does no harm.", "quantifier": "every two lists, every other operand, every comparison operator", "why_tests_cant": "Ranges over all contents of lists and all types of operands.", "anchors": [{"file": "libcomps/src/python/src/pycomps_sequence.c", "symbol": "PyCOMPSSeq_cmp"}, {"file": "libcomps/src/comps_objlist.c", "symbol": "comps_objlist_cmp"}, {"file": "libcomps/src/comps_obj.c", "symbol": "comps_object_cmp"}]}
{"id": "C161", "title": "A parser can be used again", "statement": "A parser object that was used before, on any files and strings, reads a file with comps_parse_file exactly as a newly made parser does: the same result code, document and messages.", "quantifier": "every history of uses of one parser (files and strings cut into pieces in any way, well-formed or not, NULL files, the caller taking the document), every next file", "why_tests_cant": "Ranges over all histories of inputs; a test tries a few pairs of files, and a wrong read of released memory may go unnoticed.", "anchors": [{"file": "libcomps/src/comps_parse.c", "symbol": "comps_parse_parsed_reinit"}, {"file": "libcomps/src/comps_parse.c", "symbol": "comps_parse_file"}, {"file": "libcomps/src/comps_elem.c", "symbol": "comps_elem_doc_preproc"}]}
{"id": "C162", "title": "A parser can be destroyed after any use, and no document is lost", "statement": "After any uses of a parser that came to an end, comps_parse_parsed_destroy touches no released memory, and every document the parser made was taken by the caller or is released, once.", "quantifier": "every history of uses of one parser: files, strings, NULL files, the caller taking the document", "why_tests_cant": "Ranges over all histories of inputs; leaks and double releases do not show in results.", "anchors": [{"file": "libcomps/src/comps_parse.c", "symbol": "comps_parse_parsed_destroy"}, {"file": "libcomps/src/comps_parse.c", "symbol": "comps_parse_parsed_reinit"}, {"file": "libcomps/src/comps_elem.c", "symbol": "comps_elem_doc_preproc"}]}
{"id": "C163", "title": "Log entries own their arguments", "statement": "comps_log_error and comps_log_warning copy their arguments: the caller keeps its objects, and changing or releasing them later does not change the message. comps_log_error_x and comps_log_warning_x take one reference of each argument over: such an object lives until the entries are cleared or the log is destroyed and the caller has released its other references. A caller that uses and gives away only what it holds meets no released memory, the log shows all entries in order, and after the log is cleared only the objects the caller holds are left.", "quantifier": "every sequence of making, keeping, changing and releasing objects, logging them by any of the four calls (with NULL arguments and repeated arguments), and clearing the log", "why_tests_cant": "Ranges over all interleavings; a lost or a second release does not show in results.", "anchors": [{"file": "libcomps/src/comps_log.c", "symbol": "comps_log_error"}, {"file": "libcomps/src/comps_log.c", "symbol": "comps_log_error_x"}, {"file": "libcomps/src/comps_log.c", "symbol": "comps_log_warning"}, {"file": "libcomps/src/comps_log.c", "symbol": "comps_log_warning_x"}, {"file": "libcomps/src/comps_log.c", "symbol": "comps_log_entry_destroy"}, {"file": "libcomps/src/comps_hslist.c", "symbol": "comps_hslist_clear"}]}
{"id": "C164", "title": "Walking the values of a multi-dictionary", "statement": "comps_objmdict_values_walk calls the given function once for every object of every key, and for nothing else.", "quantifier": "every multi-dictionary reached by writes, removals, unions and copies", "why_tests_cant": "Ranges over all histories of calls; the function has no test, and whether a wrong read crashes depends on what lies in memory.", "anchors": [{"file": "libcomps/src/comps_objmradix.c", "symbol": "comps_objmrtree_values_walk"}, {"file": "libcomps/src/comps_objdict.c", "symbol": "comps_objmdict_values_walk"}]}
{"id": "C165", "title": "Merging entries does not depend on the order of merges", "statement": "Merging three groups (categories, environments) gives an equal result whichever two are merged first; merging one with itself, or with a new empty one, gives an equal one.", "quantifier": "all groups, categories and environments reachable through the API, with repeated names and missing properties", "why_tests_cant": "An equation between results for all triples of entries; tests merge a few chosen pairs.", "anchors": [{"file": "libcomps/src/comps_docgroup.c", "symbol": "comps_docgroup_union"}, {"file": "libcomps/src/comps_doccategory.c", "symbol": "comps_doccategory_union"}, {"file": "libcomps/src/comps_docenv.c", "symbol": "comps_docenv_union"}]}
{"id": "C166", "title": "Intersecting entries does not depend on the order", "statement": "Intersecting three groups (categories, environments) gives an equal result whichever two are intersected first; intersecting one with itself gives an equal one.", "quantifier": "all groups, categories and environments reachable through the API", "why_tests_cant": "An equation between results for all triples of entries; tests intersect a few chosen pairs.", "anchors": [{"file": "libcomps/src/comps_docgroup.c", "symbol": "comps_docgroup_intersect"}, {"file": "libcomps/src/comps_doccategory.c", "symbol": "comps_doccategory_intersect"}, {"file": "libcomps/src/comps_docenv.c", "symbol": "comps_docenv_intersect"}]}
{"id": "C167", "title": "Merging documents does not depend on the order of merges", "statement": "Merging three documents gives documents that compare equal whichever two are merged first; merging a document with itself shows the same entries and language packs.", "quantifier": "all documents reachable through the API", "why_tests_cant": "An equation between results for all triples of documents.", "anchors": [{"file": "libcomps/src/comps_doc.c", "symbol": "comps_doc_union"}, {"file": "libcomps/src/comps_doc.c", "symbol": "comps_doc_cmp_u"}]}
{"id": "C168", "title": "Filtering by architecture before or after merging", "statement": "Filtering the merge of two groups (categories, environments) by architectures gives the same as merging the two filtered ones.", "quantifier": "all groups, categories and environments reachable through the API and all lists of architectures", "why_tests_cant": "An equation between two sequences of calls for all operands and all architectures.", "anchors": [{"file": "libcomps/src/comps_docgroup.c", "symbol": "comps_docgroup_arch_filter"}, {"file": "libcomps/src/comps_docgroup.c", "symbol": "comps_docgroup_union"}, {"file": "libcomps/src/comps_doccategory.c", "symbol": "comps_doccategory_arch_filter"}, {"file": "libcomps/src/comps_docenv.c", "symbol": "comps_docenv_arch_filter"}]}
{"id": "C169", "title": "Intersecting documents does not depend on the order", "statement": "Intersecting three documents gives documents that compare equal and show the same entries in the same order whichever two are intersected first; intersecting a document with itself shows the same entries.", "quantifier": "all documents reachable through the API, also with several entries of one id", "why_tests_cant": "An equation between results for all triples of documents; tests intersect a few chosen pairs.", "anchors": [{"file": "libcomps/src/comps_doc.c", "symbol": "comps_doc_intersect"}, {"file": "libcomps/src/comps_doc.c", "symbol": "comps_doc_cmp_u"}]}
{"id": "C170", "title": "Filtering documents by architecture before or after merging", "statement": "Filtering the merge of two documents by architectures gives a document that compares equal to the merge of the two filtered documents, with the same entries in the same order.", "quantifier": "all pairs of documents reachable through the API and all lists of architectures", "why_tests_cant": "An equation between two sequences of calls for all documents and all architectures.", "anchors": [{"file": "libcomps/src/comps_doc.c", "symbol": "comps_doc_arch_filter"}, {"file": "libcomps/src/comps_doc.c", "symbol": "comps_doc_union"}]}
{"id": "C171", "title": "Documents that compare equal are written the same", "statement": "Two documents for which the comparison of the library says equal are written to XML by the same sequence of elements, attributes and texts, with the same log entries and the same return value, for all output options and also when the XML writer fails at some point.", "quantifier": "all pairs of documents reachable through the API, all output options and defaults, all failures of the XML writer", "why_tests_cant": "An equation between two outputs for all pairs of equal documents; the ways of building equal documents (order of calls, merging, copying) are unlimited.", "anchors": [{"file": "libcomps/src/comps_doc.c", "symbol": "comps_doc_cmp_u"}, {"file": "libcomps/src/comps_doc.c", "symbol": "comps_doc_xml"}, {"file": "libcomps/src/comps_doc.c", "symbol": "comps2xml_str"}, {"file": "libcomps/src/comps_doc.c", "symbol": "comps2xml_f"}]}
{"id": "C172", "title": "Operations on equal things give equal results", "statement": "If two groups, categories, environments or documents compare equal to two others, then merging the first two and merging the other two gives results that compare equal, and so does intersecting them; filtering two equal documents by the same architectures gives documents that compare equal.", "quantifier": "all quadruples of entries and of documents reachable through the API, all lists of architectures", "why_tests_cant": "A congruence law between two runs over all pairs of equal arguments; equality of the library ignores some fields, so equal arguments can differ in unlimited ways.", "anchors": [{"file": "libcomps/src/comps_doc.c", "symbol": "comps_doc_cmp_u"}, {"file": "libcomps/src/comps_doc.c", "symbol": "comps_doc_union"}, {"file": "libcomps/src/comps_doc.c", "symbol": "comps_doc_intersect"}, {"file": "libcomps/src/comps_doc.c", "symbol": "comps_doc_arch_filter"}, {"file": "libcomps/src/comps_docgroup.c", "symbol": "comps_docgroup_union"}, {"file": "libcomps/src/comps_docgroup.c", "symbol": "comps_docgroup_intersect"}, {"file": "libcomps/src/comps_docenv.c", "symbol": "comps_docenv_union"}, {"file": "libcomps/src/comps_doccategory.c", "symbol": "comps_doccategory_union"}]}
{"id": "C173", "title": "Sums of equal Python documents are equal", "statement": "If a == a2 and b == b2 hold in a Python program, then a + b and a2 + b2 can both be made and a + b == a2 + b2.", "quantifier": "every state a Python program can reach, all quadruples of its documents", "why_tests_cant": "A congruence law over all program histories; == ignores some fields, so equal documents can differ in unlimited ways.", "anchors": [{"file": "libcomps/src/python/src/pycomps.c", "symbol": "PyCOMPS_union"}, {"file": "libcomps/src/python/src/pycomps.c", "symbol": "PyCOMPS_cmp"}, {"file": "libcomps/src/comps_doc.c", "symbol": "comps_doc_union"}, {"file": "libcomps/src/comps_doc.c", "symbol": "comps_doc_cmp_u"}]}
{"id": "C174", "title": "Adding Python documents does not depend on the grouping", "statement": "In a Python program (a + b) + c and a + (b + c) can both be made and compare equal.", "quantifier": "every state a Python program can reach, all triples of its documents", "why_tests_cant": "An algebraic law over all triples of documents and all program histories.", "anchors": [{"file": "libcomps/src/python/src/pycomps.c", "symbol": "PyCOMPS_union"}, {"file": "libcomps/src/python/src/pycomps.c", "symbol": "PyCOMPS_cmp"}, {"file": "libcomps/src/comps_doc.c", "symbol": "comps_doc_union"}, {"file": "libcomps/src/comps_doc.c", "symbol": "comps_doc_cmp_u"}]}
{"id": "C175", "title": "Saving and loading before adding changes nothing", "statement": "If a2 is read with fromxml_str from a.xml_str() and b2 from b.xml_str(), then a + b == a2 + b2.", "quantifier": "every state a Python program can reach, all documents in it, all output options and default values, every way in which the XML parser can divide the text", "why_tests_cant": "A law between writer, parser and union over all documents and program histories.", "anchors": [{"file": "libcomps/src/python/src/pycomps.c", "symbol": "PyCOMPS_union"}, {"file": "libcomps/src/python/src/pycomps.c", "symbol": "PyCOMPS_toxml_str"}, {"file": "libcomps/src/python/src/pycomps.c", "symbol": "PyCOMPS_fromxml_str"}, {"file": "libcomps/src/comps_doc.c", "symbol": "comps_doc_union"}, {"file": "libcomps/src/comps_doc.c", "symbol": "comps2xml_str"}, {"file": "libcomps/src/comps_parse.c", "symbol": "comps_parse_str"}]}
{"id": "C176", "title": "Two architecture filters can be applied in either order", "statement": "If a document can be filtered by each of two lists of architectures, then filtering by the first and then the second gives a document that compares equal to filtering by the second and then the first, with the same entries in the same order. In Python, a.arch_filter(r).arch_filter(s) == a.arch_filter(s).arch_filter(r).", "quantifier": "all documents reachable through the API, every state a Python program can reach, all pairs of lists of architectures", "why_tests_cant": "A commutation law over all documents and all pairs of lists.", "anchors": [{"file": "libcomps/src/python/src/pycomps.c", "symbol": "PyCOMPS_filter_arches"}, {"file": "libcomps/src/comps_doc.c", "symbol": "comps_doc_arch_filter"}, {"file": "libcomps/src/python/src/pycomps.c", "symbol": "PyCOMPS_cmp"}, {"file": "libcomps/src/comps_doc.c", "symbol": "comps_doc_cmp_u"}]}
{"id": "C177", "title": "Filtering Python documents before or after adding", "statement": "In a Python program (a + b).arch_filter(r) == a.arch_filter(r) + b.arch_filter(r), and all these documents can be made.", "quantifier": "every state a Python program can reach, all pairs of its documents, all lists of architectures", "why_tests_cant": "A distributive law over all documents, lists of architectures and program histories.", "anchors": [{"file": "libcomps/src/python/src/pycomps.c", "symbol": "PyCOMPS_union"}, {"file": "libcomps/src/comps_doc.c", "symbol": "comps_doc_union"}, {"file": "libcomps/src/python/src/pycomps.c", "symbol": "PyCOMPS_filter_arches"}, {"file": "libcomps/src/comps_doc.c", "symbol": "comps_doc_arch_filter"}, {"file": "libcomps/src/python/src/pycomps.c", "symbol": "PyCOMPS_cmp"}, {"file": "libcomps/src/comps_doc.c", "symbol": "comps_doc_cmp_u"}]}
{"id": "C178", "title": "Adding a document a second time changes nothing", "statement": "For documents in which no two entries of a kind have one id, merging the same second document twice gives a document equal to merging it once; in Python, (a + b) + b == a + b.", "quantifier": "all documents reachable through the API without two entries of one id (with an encoding and without NULL lists), every state a Python program can reach", "why_tests_cant": "An absorption law over all pairs of documents and program histories.", "anchors": [{"file": "libcomps/src/python/src/pycomps.c", "symbol": "PyCOMPS_union"}, {"file": "libcomps/src/comps_doc.c", "symbol": "comps_doc_union"}, {"file": "libcomps/src/python/src/pycomps.c", "symbol": "PyCOMPS_cmp"}, {"file": "libcomps/src/comps_doc.c", "symbol": "comps_doc_cmp_u"}]}
{"id": "C179", "title": "A wider architecture filter before a narrower one changes nothing", "statement": "If a document can be filtered by a list of architectures and a second list has only architectures of the first, then it can be filtered by the second list, and filtering by the first and then by the second gives the same entries in the same order as filtering by the second alone, and a document that compares equal; in particular filtering by one list twice is the same as filtering once. In Python, a.arch_filter(s).arch_filter(r) == a.arch_filter(r).", "quantifier": "all documents reachable through the API, every state a Python program can reach, all pairs of lists of architectures one of which contains the other", "why_tests_cant": "An absorption law over all documents and all pairs of lists.", "anchors": [{"file": "libcomps/src/python/src/pycomps.c", "symbol": "PyCOMPS_filter_arches"}, {"file": "libcomps/src/comps_doc.c", "symbol": "comps_doc_arch_filter"}, {"file": "libcomps/src/python/src/pycomps.c", "symbol": "PyCOMPS_cmp"}, {"file": "libcomps/src/comps_doc.c", "symbol": "comps_doc_cmp_u"}]}
{"id": "C180", "title": "The order of the requested architectures does not matter", "statement": "Two lists holding the same architectures, in whatever order and however often, filter every group, category, environment and document in the same way, with the same success or failure. In Python, a.arch_filter(r) == a.arch_filter(s) for such lists.", "quantifier": "all entries and documents, every state a Python program can reach, all pairs of lists with the same members", "why_tests_cant": "It speaks of all permutations and repetitions of lists of any length and of all documents.", "anchors": [{"file": "libcomps/src/python/src/pycomps.c", "symbol": "PyCOMPS_filter_arches"}, {"file": "libcomps/src/comps_doc.c", "symbol": "comps_doc_arch_filter"}, {"file": "libcomps/src/comps_docgroup.c", "symbol": "comps_docgroup_arch_filter"}, {"file": "libcomps/src/comps_utils.c", "symbol": "__comps_objlist_intersected"}]}
{"id": "C181", "title": "Filtering by more architectures leaves more", "statement": "If a document can be filtered by a list of architectures and a second list has only architectures of the first, then it can be filtered by the second list, and what the second list leaves is part of what the first leaves, which is part of the document: some of the entries, in the same order and with the same properties and translations, each with some of its packages, group ids or options in the same order.", "quantifier": "all documents reachable through the API, all pairs of lists of architectures one of which contains the other", "why_tests_cant": "A monotonicity law over all documents and all pairs of lists.", "anchors": [{"file": "libcomps/src/comps_doc.c", "symbol": "comps_doc_arch_filter"}, {"file": "libcomps/src/comps_docgroup.c", "symbol": "comps_docgroup_arch_filter"}, {"file": "libcomps/src/comps_doccategory.c", "symbol": "comps_doccategory_arch_filter"}, {"file": "libcomps/src/comps_docenv.c", "symbol": "comps_docenv_arch_filter"}]}
