# Formal model of libcomps: design

Source: `/repo` (libcomps, C). The model is in Lean 4, in `/verif/lean/Verif/`.

## Trusted base

* The Lean 4 kernel, and the axioms `propext`, `Classical.choice`, `Quot.sound`
  (each property file ends with `#print axioms`).  No other axioms.
* The hand translation from C to Lean.  Every definition cites the C lines it
  models and says what was simplified.
* What is *not* modelled, everywhere: allocation failure (`malloc` returning
  NULL), integer wrap-around of counters unless said so, the text encoder of
  libxml2, the tokenizer of expat, printing to stdout/stderr, the Python bindings
  except the sequences (C62-C71), the string dictionaries (C72-C80), the document object (C81-C97)
  single entries (C98-C105), and programs on documents, entries, lists and dictionaries with reference counts
  (C106-C112, C144-C146), attributes in files (C113, C114), the plain
  dictionary (C115-C121), the binary dictionary (C147-C152), the plain multi-dictionary (C153-C157), Python multi-dictionaries (C122-C129),
  sums of lists (C132-C136).

## Modelling conventions

* Undefined behaviour is a value.  A function that can dereference NULL, use freed
  memory, write out of bounds or loop for ever returns `Except Fault a`, and the
  fault is a different result from every normal result.
* C strings are `List UInt8` without the NUL byte (`Bytes`).
* `char` signedness is implementation defined.  Where the code compares `char`s
  (`key[0] < key[offset]`, `strcmp`) the order is a parameter of the model, and the
  theorems hold for every order.
* A `COMPS_HSList` is modelled twice: at pointer level (heap of cells, `first`,
  `last`), and as `{items, tailSet}` where `tailSet` says whether `last` points to
  the last item or is NULL.  The second is proved to be simulated by the first for
  the operations used by the dictionaries.
* `COMPS_Object` values are trees.  Where the code compares *pointers* (for example
  `comps_objlist_index`), objects carry an address.

## Layers

| layer | C files | Lean |
|---|---|---|
| lists | comps_hslist.c | `Model/HSList.lean`, `Model/Heap.lean`, `Model/HSHeap.lean` (pointer level) |
| sets | comps_set.c | `Model/CSet.lean` |
| object lists | comps_objlist.c | `Model/ObjHeap.lean` (pointer level), `Model/ObjWalk.lean` (walks) |
| dictionary | comps_objradix.c, comps_objdict.c | `Model/RTree.lean` |
| plain dictionary | comps_radix.c, comps_dict.c | `Model/Radix.lean` (shares its nodes with `RTree`) |
| binary dictionary | comps_bradix.c (key functions of tests/check_brtree.c) | `Model/BRadix.lean` (shares its nodes with `RTree`) |
| multi-dictionary | comps_objmradix.c | `Model/MRTree.lean` |
| plain multi-dictionary | comps_mradix.c, comps_dict.c | `Model/MRadix.lean` (shares its nodes with `MRTree`) |
| reference counts | comps_mm.c, comps_obj.c | `Model/RefC.lean` |
| values, packages, group ids, groups, categories, environments, documents | comps_obj.c, comps_doc*.c | `Model/Obj.lean`, `Model/Group.lean`, `Model/Doc.lean` |
| XML output | comps_doc*.c `*_xml` | `Model/Xml.lean` (sequence of writer calls) |
| parser | comps_parse.c, comps_elem.c | `Model/Parse.lean` (expat events to state) |
| validation | comps_validate.c | `Model/Validate.lean` |
| Python sequences | python/src/pycomps_sequence.c | `Model/PySeq.lean` (on the pointer level lists) |
| Python string dictionaries | python/src/pycomps_dict.c, pycomps_utils.c (conversions) | `Model/PyDict.lean` |
| Python multi-dictionaries | python/src/pycomps_mdict.c | `Model/PyMDict.lean` |
| Merges with owner counts, sums of Python lists | comps_docgroup.c, comps_doccategory.c, comps_docenv.c, comps_doc.c (unions); python/src/pycomps_groups.c, pycomps_categories.c, pycomps_envs.c (sums) | `Model/Own.lean`, `Model/PyAdd.lean` |
| Python documents | python/src/pycomps.c | `Model/PyComps.lean`, `Model/PyOpts.lean` |
| Python programs | python/src/pycomps_utils.c, pycomps_sequence.c, pycomps_groups.c, pycomps_categories.c, pycomps_envs.c, pycomps_gids.c, comps_obj.c, comps_objlist.c | `Model/PyHeap.lean` |
| life of a parser object | comps_parse.c (89-122, 202-273), comps_elem.c (449-454), python/src/pycomps.c (258, 270, 364, 376) | `Model/ParseLife.lean` |
| owners of log arguments | comps_log.c (52-157, 165-176, 210-215), comps_hslist.c (254-272), comps_obj.c (18-41, 74-78, 157-181) | `Model/LogOwn.lean` |
| walk over a multi-dictionary | comps_objmradix.c (93-117), comps_objdict.c (91-94) | `Model/MWalk.lean` |
| comparison of Python lists | python/src/pycomps_sequence.c (566-577), comps_objlist.c (416-430), comps_obj.c (48-58) | `Model/PySeqCmp.lean` |
| Python entries | python/src/pycomps_groups.c, pycomps_categories.c, pycomps_envs.c, pycomps_gids.c, pycomps_hash.c, pycomps_utils.c, crc32.c | `Model/PyElem.lean` |
| Python: messages | comps_log.c (texts), python/src/pycomps.c (`get_last_log`, `get_last_errors`) | `Model/PyLog.lean` |
| text, buffers | comps_utils.c, comps_log.c, comps_obj.c | `Model/Text.lean` |

Specifications (finite maps as functions, sequences, sets as predicates) are in
`Spec/`, and do not use the model's helpers.  Property theorems are in `Props/`,
one file per group of properties, with a non-vacuity `example` beside each.

## Plan per property

* C01 read-after-write: `RTree` model of set/get; induction on the key length;
  invariant "sibling keys have distinct first bytes, keys non-empty".
* C02 frame of writes: false.  A list filled by prepend/insert-after has
  `last == NULL`; a later append to it (prefix branch of set) drops all items.
  Witness: set "ab", "c", "a"; "c" is gone.  Partial theorem: holds whenever no key
  present extends the new key, and whenever the sibling list at that point has its
  tail pointer set.  `C02_effect` says what is lost in every reachable state: nothing, or exactly
  the keys below some proper prefix of the key that do not extend it (`Spec/DictLost`).
* C03 finite map over histories: false in general (C02).  Partial: for all histories
  where no key is a proper prefix of an earlier key.  `C03_sound`: for all histories, a read gives
  NULL or what the map has (from the effects in C02 and C05).
* C04 listings: permutation-free exact statement; induction on the tree; the work
  list is modelled as in the code.
* C05 removal: false (three witnesses: descendants removed, use after free, NULL
  dereference).  Partial: exact conditions for safe removal; which keys go with the removed one.
* C06 clone/copy: lookups and listings kept; `len` kept by clone, not by copy
  (witness).
* C07 len: false (three witnesses), partial for non-NULL set-only histories.
* C08 union: in full (it merges into a fresh clone, whose lists have their tail
  pointers).  C137 in-place merge: partial under the C02 guard, false without it.
* C09 cmp: extensional, for every lawful value comparison.
* C10 multi-dictionary: false (value list nested by a split; witness).  Partial:
  every history, reading through wrapped lists; exact for histories with no mid-edge split;
  exact effect of one write in any reachable state (`Spec.Wrote`: what is wrapped, what appears).
* C11 multi-dictionary cmp: false (values ignored), exact characterisation: equal iff
  same keys.
* C12 plain list: pointer level; prepend and insert-at break the tail pointer
  (witness); partial for the safe operations.
* C13 object list: pointer level heap model, refinement to sequences.
* C14 slices: exact characterisation, false at the end of list (witness).
* C15 list cmp: induction.
* C16, C17, C18 sets: induction; any equality function (C16, C18), equivalences
  (C17).
* C19 refcount: heap of objects with counts and owned references; client programs over
  create, retain, release and the list calls; invariant "count + 1 = number of references";
  the ownership discipline of the client is `Spec/Owner.lean`.
* C54 overwriting a slot by itself: false (old value released before the new one is
  retained); exact condition for the fault.
* C20..C22 unions and intersections of groups, categories, environments
  (`Model/Obj.lean`, `Model/Group.lean`): the loops over copies with addresses are proved equal to
  the merge of `Spec/Merge.lean`; dictionary part through C08.  False with repeated names in an
  operand, with lists set to NULL, and for translations of an intersection (witnesses).
  "Reachable object" is `Spec/Built.lean`: any sequence of API calls.
* C23, C24 document union/intersection (`Model/Doc.lean`): the dictionary of a document has
  prefix-free keys, so each getter is an independent slot (`Spec/Doc.lean`: `DocBuilt`, `Shows`);
  the merge loops are characterised for any key function.  False without an encoding (NULL is
  read), C23 for repeated ids, C24 with NULL lists (witnesses).
* C25 arch filter: list-level, idempotence.  False for entries with an empty (not NULL)
  list of architectures.  Documents: the same at the level of entries; false without an encoding.
* C26 queries: characterisation of the matched/matched_max counters; the C library's `fnmatch` is
  a parameter.  False for groups queried by description in a language (the untranslated text counts
  too; exact result `C26_groups_what`) and for string objects without text.
* C27 XML balance: the calls of the libxml2 writer with their results; which calls fail is an
  arbitrary function.  `Spec/Xml.lean` says which tree a document stands for; with a writer that never
  fails the calls are exactly those of the tree.  False when a call fails inside a package (the
  element stays open, witness).
* C28 round trip: the calls of the writer determine the tree (`calls_inj`); `Transmits`
  (Spec/RoundTrip) is the assumption about libxml2 and expat: the tree arrives as handler calls, text
  in pieces none of which is white space only, perhaps with white space between elements.  Reading it
  with `readDoc` gives back every entry (Lemmas/RoundEntry, RoundDoc); with C27 and C59 the real
  writer and parser do the same.  `RoundTrips` lists the conditions.  Outside of them false: package
  type unknown, newlines, empty texts, flags never set, basearchonly 0, black list names that begin
  alike (witnesses, computed with the model of both sides).  Writer and parser have the same defaults.
* C29 parser safety (`Model/Parse.lean`): transition system over expat's handler calls, with faults.
  `Spec/Parse.lean` reads a tree of elements without stack and buffer (`readDoc`); the parser is
  proved to follow it element by element.  Attribute conditions are not needed for safety: the
  simulation is proved for attributes as the dictionary holds them (`asStored`).  Five kinds of
  files fault (witnesses).
* C30 result code: exact for `comps_parse_file` and for `comps_parse_str` on a new parser; false for
  `comps_parse_str` on a used parser.  `fread` errors end the loop like the end of the file; not
  modelled.
* C31 misplaced elements: the stack is the path of open elements (invariant over all runs), which
  decides validity; the rest of the run does not read the log.  False for `<comps>` inside (replaces
  the document) and for text before the element (dropped).
* C32 chunking: bisimulation of runs with the same kept text; false for white-space pieces.
* C33 flags: the values by induction on the children in `readDoc`; files as in C29.  That every group
  has its flags is proved for all files, by the invariant of C139.
* C139 any input: `Used` (Spec/ParseAny) is a parser after any calls; the invariant over the handler calls
  (`AnyInv`, Lemmas/ParseAny) says that the document was made through the API, has an encoding, that no list
  is NULL, and that all groups but an open last one have their flags.  No condition on the input.  Left
  out: runs that end in a fault (C29); writing the document (C27, C58), copying it (C55).
* C140 programs do not crash: invariant over the reference machine of Python documents (`Typed`,
  Lemmas/PyTyped): every list holds entries made through the API that have their lists (`Native`: the
  Python setters take lists only), every document has an encoding and a document type.  With C23, C25, C41,
  C60, C61 and the invariant of C139 every call but those of `MayCrash` (Spec/PyTyped) then ends.  Disagreements:
  `C140_false`, `C140_order_false`, `C140_parse_false`.
* C138 the messages of `validate_nf`: from C61, whose conditions follow from C140.
* C141, C142 messages: `Model/PyLog.lean` makes the texts with the functions of C37, C38.  `Held`
  (Lemmas/PyLog) is an invariant over the handler calls: the entries have as many arguments as their format
  has places, and the texts among them are names and texts of the input.  `Logs` is the same for the writer
  monad, `Logged` for programs.  The type of an entry (error or warning) is not kept in the log of the model
  but told from it.  Disagreements: `C141_false`, `C142_false`.
* C143: the log of `xml_f` from C27; that its texts name the groups is proved, that they name categories and
  environments is false, and some messages of the parser name no element or the wrong one.
* C59 parsed document: the full specification `readDoc`, messages included.  The document is
  `DocBuilt`, so C19-C27, C41, ... hold for parsed documents.  `DocBuilt` has a constructor for the
  document type stored by the parser (comps_parse.c:178-200), since the setters for the identifiers
  overwrite the name.
* C34 validation: rules abstract (text, check), result of the fold characterised; messages moved
  in sized buffers.  C35 duplicates: loop over the list with the set of `CSet`, pointers compared
  by `comps_objlist_index`; exact condition for the overflow of the message buffer.
* C36, C37, C38, C39, C45, C46 text functions: `Model/Text.lean`; a buffer has a size and every
  write checks it.  `log10` of a double is taken to be exact for every `int`; `%d` of a
  `size_t` prints it.
* C40 doctype setters: false (witness).
* C41 equivalence: comparison of two reachable objects is characterised (same lookups, same
  entries), which gives the laws; values under one name always have one type.  Documents: the
  values of black list and whiteout are not compared (C11).
* C42 langpacks: false (a copied dictionary counts 0 entries, and the count decides, witness);
  `C42_what` says what is written for a copy.
* C43 setter/getter laws: the nine property names are prefix-free, so C03 applies; value after a
  sequence is read off the calls (`lastStr`, `lastNum`, `lastArches`).  C44 likewise for documents.
* C47 get_it: false everywhere.  C48 insert_before: false at the first two positions,
  partial after.  C49 concat_in: self case diverges (for every fuel), partial for two
  different lists.  All at pointer level.
* C50 multi-dictionary removal: false (use after free; a removed prefix key stays
  found).  Exact: removal faults iff the key is the only one extending some other key
  (`Spec.OnlyChild`), and otherwise leaves `Spec.Removed`.  C51 clear and C52 copy: false
  for every non-empty multi-dictionary.  C53 unite: proved, through the writes it makes.
* C55 a copied document: false; `log` and `lang` of the copy are not written (`logSet`), and copying
  faults with any black list or whiteout entry.  Partial: documents not made by copying.
* C56 `comps_doc_set_lang`: false; "lang" is a proper prefix of "langpacks" (C02).  Partial: documents
  without language packs.
* C57 parts kept by union, intersection, filtering: false; `C57_what` says what the result holds.
* C58 result of writing: false (256 entries left out give 0; a text that cannot be written is not
  reported).  Partial: writers that do not fail, fewer than 128 entries left out.
* C60 failing writers: proved for every pattern of failures.  `Acts` describes a run by the calls and
  messages it adds, whatever fails; each writing function either returns -1 with its last call failed
  or goes on.  Spec/XmlFail lists the calls whose failure ends the output (`Vital`) or is logged
  (`Told`); the code drops failures of the others (C58, C27).
* C61 validation of documents: `Model/ValidateDoc.lean` has the six rule tables; Spec/ValidateDoc
  computes the complete report from the content.  False for entries with a NULL list (witness), partial
  otherwise.  The members of a list are taken to be different objects (C35 shows that it does not
  matter), and the empty list a getter stores is dropped.
* C62-C71 Python sequences: `Model/PySeq.lean` has the functions of pycomps_sequence.c on pointer level
  lists; a cell may hold NULL, as slice deletion leaves it.  The five kinds of lists (groups,
  categories, environments, packages, group ids) differ in a record of type information.  Assumed:
  numbers fit in `Py_ssize_t`, `int` has 32 bits, lists have fewer than 2^31 elements,
  `PySlice_GetIndicesEx` of the runtime does what its documentation says.  Reference counts and the
  texts of exceptions are left out.  Spec/PySeq says what the operations mean for a Python list,
  Spec/PyUse has histories of calls and a loop.
* C62 false beyond `int`.  C63 false for negative indices (nothing happens), for replacing an element by
  one with its id, and for packages (the name is used as a dictionary).  C64 false for negative steps
  and steps beyond `int`.  C65 false for every slice that selects something: proved for all lists; the
  sweep over the emptied cells removes the cell after the emptied one and then reads it.  C66 false when
  the value is longer than a slice in the middle, for insertion, for reuse of ids being replaced, for
  packages and group ids.  C67 false with `insert`.  C68 false for strings.  C69 false for packages
  without a name.  C70 false when the next element is taken out.  C71 false with assignment.  In each
  case the `_partial` theorem states what is left.
* C72-C80 Python string dictionaries: `Model/PyDict.lean` has programs (lists of operations) on any number
  of dictionaries and iterators.  A dictionary is the radix tree of `Model/RTree.lean` with addresses of
  reference-counted strings as values, so that sharing between copies, leaks and use of freed strings
  are visible.  `utf8`, the set of byte strings Python decodes, is a parameter (with the empty string in
  it).  `d.update(d)` is simplified (see the comment there).  Left out: the memory of tree nodes, the
  texts of exceptions, subclasses of `str`.  Proof: a world of finite maps (Spec/PyDict) is simulated
  step by step (`step_ref`); memory safety is a separate invariant for all careful programs (`Inv`,
  `step_safe`): every reference held by a tree is counted, and iterators that are not stale point to
  values of their dictionary.  The surplus of counts is exact for permitted programs (`Exact`, C76) and
  never shrinks (`Mono`, C76_false).
* C72 false for keys that are proper prefixes of others (as C02).  What is left for those keys is stated in
  Spec/PyForget (`Follows`): maps that may forget keys between operations, proved by the same simulation
  with the exact effect of a write (`setLoop_effect`), step by step (`step_forget`).  C73 false always.  C74 false for
  copies.  C75 false for `del`, for iterators over values and items after changes, for bytes that do not
  decode.  C76 false with `has_key`, refused keys, lost keys.  C77 false for values and items.  C78 false
  for `None` and for strings without encoding.  C79 false for such strings and other operands.  C80
  false for the empty key, NUL, and undecodable bytes.
* C81-C97 Python documents: `Model/PyComps.lean` has programs on any number of `Comps` objects and
  variables.  Lists and dictionaries of a document are objects with a reference count, the Python objects
  around them (wrappers) too; a document holds its objects and a cache of wrappers, a variable holds a
  wrapper.  Reading a freed object is a fault.  What is done with a list through a variable is one
  operation, `write`, that replaces its contents (the operations themselves are C62-C80); `read` and
  `dump` look at contents.  Parsing, writing, validating, comparing, union and filtering are the
  functions of the C library modelled before, applied to the contents (`Content.toDoc`); a document
  they make is adopted (`adopt`), its lists becoming objects.  Left out: subclasses, garbage collection,
  the texts of exceptions other than `ValueError`, `groups_match` and its like.
* Proof: the machine is simulated by a reference machine (Spec/PyComps) in which lists are never freed
  and nothing is counted (`run_sim`); the invariant `Inv` says that counts are exactly the references held
  by documents, wrappers, caches and variables, except for the surplus left by `langpacks`, `blacklist`
  and `whiteout`, which are never released (C89_false).  The properties are then proved on the reference
  machine.  C81 compares it with one without cache.  C88, C89: ownership invariants (`Owned`, `Three`).
* C81 false after `clear()`.  C84 false: `fromxml_f` throws the document away before it looks at the
  result.  C85 false for `fromxml_str` that raises.  C87 false for `del` and other operands.  C89 false
  for three of the attributes.  C92 false for a package type that is no number, and for
  `get_xml_default_options()`.  C93 false: `SystemError`.
* Options (`Model/PyOpts.lean`): a dictionary is a function from keys to values; values are booleans,
  integers or something else.  Keys that are no text are left out, as nothing looks them up.
* C96, C97: `Made` (Spec/PyRound) says that the entries a Python document holds were made through the
  API; then the document handed to the C library is `DocBuilt` (`made_built`) and C28 and C41 apply.
  By C140 the documents of every program Python can write are `Made`, so the statements for programs
  (Props/PyMade) need no such condition.  C96 false for packages without a type (as C28).
* C98-C105 Python entries: `Model/PyElem.lean` has one object at a time: attributes of type string, number
  and Boolean, constructors, comparison, `str`, `hash`, `packages_match`.  Python's UTF-8 decoder is the
  parameter `utf8`.  `int` has 32 bits, `long` 64.  Left out: the attributes that hold lists and
  dictionaries, texts of exceptions, reference counts, subclasses, `__index__`.  The file crc32.c is not
  in the list of sources of the build; zlib's function of the same name, which computes the same, is
  linked.  Spec/PyElem is a record with one slot per attribute; C98 and C100 are refinements of it for
  all sequences of assignments (`runs_gen`).  C103: the room reserved by hand suffices exactly
  (`entryText_ok`), the table of the checksum has 256 entries.
* C98 false: `x.name = None` succeeds and does nothing; `del x.display_order` reads through NULL.  C99
  false beyond `long`.  C100 false for `None`.  C101 false for display orders that are not positive.
  C102 false for packages and groups (`basearchonly` is hashed and not compared).  C103 false for negative
  numbers (as C45).  C104 false without a type.  C105 false for a group id and `None`.
* C106-C112 Python programs: `Model/PyHeap.lean` has memory as cells with counts (C objects and Python objects
  alike), variables, and 38 kinds of calls: constructors, binding and deleting variables, `is`, all
  attributes, lists (`len`, `[i]`, `["id"]`, `append`, `insert`, `[i] = x`, `del [i]`, `remove`, `clear`),
  dictionaries (`[k] = v`, `get`), `packages_match`, `validate`, documents (`Comps()`, the attributes
  `groups`, `categories`, `environments` with the Python object the document keeps for each, `clear`,
  the three searches; of a document its language packs, black- and whitelist, log and files are left
  out here).  Freed cells are never used again, so a use after
  free is a distinct fault.  Simplified: positions are not negative, slices and sums are left out (C62-C71
  have them for one list), strings in properties and dictionaries are values, dictionary keys and values
  have an encoding, the deallocation of an object takes it out of memory before what it holds is
  released.  `Spec/PyHeap.lean` is the same calls on objects that are never freed and never counted; `lost`
  there is a ghost for references nobody gives back.  `step_sim` proves the refinement call by call from
  the invariant that each count is the number of references from variables, `lost`, and live objects.
  `step_outcome` proves type safety with the invariant `Typed` (a list of groups has groups in it, and so
  on); `live_iff` that memory is exactly what is in reach.
* C107 false for `is` and after assignment of translations.  C109 false: `__PyCOMPS_get_dict` returns the
  dictionary remembered by the Python object, and each Python object for the same entry has its own.
  C110 false: `list_setitem` and `list_setitem_id_unique` never give back the reference of the converted
  item, nor does `PyCOMPSSeq_remove`; `__PyCOMPS_set_ids` takes a reference to the Python list that nobody
  owns.  C112 false: `list_unique_id_check` on packages takes the name for the dictionary of properties, so
  `l[i] = p` crashes for every list of packages; `del c.groups` looks at the type of NULL.
* C113, C114 attributes: no new model; two runs of the parser of `Model/Parse.lean` are related event by
  event (`Near`: same document, same messages of other codes, elements on the stack whose attributes are
  alike for the names comps defines), and the messages of one run are counted.  `Spec/ParseAttrs.lean` has
  the files that say the same (`SameSaid`) and the messages a file deserves (`attrsToReport`).  Both are
  false in general: the dictionary of attributes loses siblings when a name is a proper prefix of a name
  before it (C03), so `<packagereq basearchonly="true" type="optional" b="1">` is a mandatory package, and
  of the unknown attributes `ab`, `c`, `a` only two are reported.
* C115-C121 plain dictionary: `Model/Radix.lean` is `comps_radix.c` with the three callbacks (constructor,
  cloner, destructor) and the list of calls of the destructor each operation makes; a cleared non-empty
  dictionary is `dangling` (`comps_rtree_clear` frees the list of nodes and keeps the pointer).  Ownership
  (C115, C116) is an invariant over histories: destroyed ++ held ++ lost is a permutation of the pointers
  handed over, and nothing is lost in orderly histories.  C117 is a simulation of `RTree`.  C119 reads a
  union as a history of writes.  Found false: everything is destroyed in the end (siblings lost, C02; the
  empty key), a length is respected (`comps_rtree_set_n` stores the rest of the string when it makes a new
  node), clearing (use after free), a removal destroys one value only ("a" of {"a", "ab"} destroys both).
  A length greater than that of the string is modelled as a fault.
* C122-C129 Python multi-dictionaries: `Model/PyMDict.lean` is `pycomps_mdict.c` on top of `Model/MRTree.lean`,
  for programs over any number of dictionaries.  A cleared dictionary is `dead` (`comps_objmrtree_clear` frees
  the list of nodes).  `Spec/PyMDict.lean` says what each call does to a map from keys to lists and a
  counter (`Does`); `run_ok` proves the refinement for all programs, and the properties are derived from
  it.  What a write does to a map is `Wrote` (Spec/MDict): the relation is exact except for which of the
  keys below a split is wrapped.  Left out: value lists kept in variables, exceptions' texts, reference
  counts, operands that are not an `MDict`.
* C122 false for the empty key and `m[k] = m[k]`.  C123 false: a node that is split off gets the list of
  values wrapped into one element, whose text is "[1, 2]".  C124 false: removal frees the only child's
  list, `str` of an empty dictionary, any use after `clear`, `values`, `copy`, `update` with itself,
  `items` with a key that does not decode.  C125 false: the counter counts elements and is not told of
  `append`.  C126, C128 false against the docstrings (pycomps_mdict.c:377-402).  C127 false: splits make
  keys, also inside a character.  C129 false: `comps_objmrtree_paircmp` compares the
  first list with itself.
* C130-C135 merges and sums with memory: `Model/Own.lean` runs the merging loops on a memory of objects with
  owner counts; a read, increment or release of a dead object is a fault.  The properties speak of all
  memories in which the pointers of the two lists are valid (they may share objects and hold an object
  twice), prove that no fault occurs, what the values are, which objects are new, and how many owners
  everything has when the result is destroyed (`Leaves`: the exact set of leaked objects; their number is
  `repeats` of Spec/Own).  Proof: an invariant of the loops (`Mid`) with a ledger: owners = owners
  before + occurrences in the result + in the set + leaked.  What an entry contains is its value: the
  lists inside copied entries are not in this memory (their copies are C130's lists).
* C130, C131, C134 false: a copy that is not added to the set because its name is there is never released; a
  merged entry is put at the place of an earlier merged entry without releasing that.  C132 false: the
  second list's repeated ids are not looked for among the second list; only the first is merged.
  C133 false: entries only the second list has are not copied (comps_docgroup_union copies).  C135 false:
  only the type is taken over.
* C136: `Model/PyAdd.lean` is the type checks of the `nb_add` slots under Python's order of slots.  False:
  the slots check the right operand only, but Python calls them also when only the right operand is
  of the type.
* C144-C146 documents in Python programs: the machine of C106.  `Spec/PyHeapDoc.lean` says which entries a
  search wants (`wanted`), and what is valid (`Valid`).  C144 uses the invariants of C112; its partial uses
  `Tied` (the Python object a document keeps for an attribute is around the document's list), an invariant
  of all calls but `clear`.  C145: `Held`, what a call leaves of variables and kept attributes.
* C144 false: `PyCOMPS_clear` (pycomps.c:201-211) leaves the Python objects the document keeps, so
  `c.groups` goes on showing the old list.  C146 false: `Package()` gets a name whose text is NULL, which
  is read as "" and is not empty for `comps_empty_check`.
* C147-C152 binary dictionary: `Model/BRadix.lean` is `comps_bradix.c` with the key functions of
  `tests/check_brtree.c` (what they have to do is not documented).  One induction on the key gives, for one
  write, the invariant (siblings differ in the first byte, `last` is set, paths are prefixes of keys
  written), the lookups and where every pointer is.  No key is a proper prefix of another if all have one
  length, so C147 and C148 hold for those.  C149 false: if the key ends inside a node's key
  (278-292), the new node gets the whole key and the old one a part computed from wrong offsets.  C150
  false: `key_cmp` is used as a truth value (414), and it is never 0, so the first subnode is always taken;
  a parent left without subnodes is used after it was freed.  C151 false: the cloner is called for inner
  nodes of the first level, whose data is NULL (170).  C152 false: as C120.  Not expressed: removals with keys that are no C
  strings (`strlen` of the key, 408), and other key functions.
* C153-C157 plain multi-dictionary: `Model/MRadix.lean` is `comps_mradix.c`.  It differs from
  `comps_objmradix.c` in that the node made by a split has a NULL list (395), to which nothing is added.  A
  write is simulated step by step by the one of `Model/MRTree.lean` on lists with codes for "old list",
  "value added", "new list" (`setLoop_sim`), so the lemmas of C10 and C50 give the exact effect
  (`PlainM.Wrote`).  `CalmI` (no NULL list, no list in a list) is the invariant of the histories `Calm`; there
  removals are those of `MTree` and a multiset equation says where each pointer is.  A union is
  shown to be the writes of the second tree in the order of the listing, in which no key comes before one of
  its prefixes (`visited_order`), so the combined history is nested.  Not expressed: unions of a
  dictionary with itself; `len` beyond the end of the string in `comps_mdict_set_n`; elements
  that are lists given to constructor or cloner (a fault in the model).
* C158, C159 walks through lists: `Model/ObjWalk.lean` has `comps_objlist_walk` and `comps_objlist_walk_r`
  (comps_objlist.c:124-141); the loops of a caller are `Spec/ObjWalk.lean`.  C158 is by induction on the list
  of the invariant of C13.  C159 false: `comps_objlist_walk_r` advances its own copy of the iterator.
* C160 comparison of Python lists: `Model/PySeqCmp.lean`.  Induction on both lists; that members compare as an
  equivalence is C41.  C160 false: `PyCOMPSSeq_cmp` casts the other operand without a check (569), and
  `comps_object_cmp` calls the function of the first object's class on the second object of any class.  Reading
  a member as a structure of another class counts as a fault, though some classes begin with the same fields.
  Not expressed: the line `comps_docgroup_cmp_u` prints when two groups differ.
* C161, C162 one parser for several inputs: `Model/ParseLife.lean` adds the destructor, the caller taking the
  document, and a count of documents whose pointer is overwritten.  `account` (Spec/ParseLife) looks at the
  tags `<comps>` of the inputs only.  C162: every handler keeps the state of the pointer (none, document,
  released) or faults, and `<comps>` makes a document (`step_kind`), by induction over events, pieces and uses.
  C161: before the first `<comps>` all elements are invalid, so no handler looks at the document
  (`steps_before`); `<comps>` overwrites it; without pending text the reset parser is a new one but for the
  pointer.  Both false in general: `comps_parse_parsed_reinit` releases the document (106) and keeps the
  pointer, and does not reset `text_buffer_len`.
* C163 owners of log arguments: `Model/LogOwn.lean` runs programs of a client over memory with numbers of
  owners.  Spec: the client's view (values, references it holds, entries whose arguments are values or its
  objects).  Invariant by induction over calls: every place in memory has as many owners as references held
  and arguments in entries; copies are at places the client does not know.
* C164 walk over the values of a multi-dictionary: `Model/MWalk.lean`.  The order of nodes is that of the plain
  dictionary (`valuesWalk_perm`).  False: lines 110-113 cast `COMPS_ObjListIt` to `COMPS_HSListItem`, whose two
  fields are in the other order; reading an object as a cell counts as a fault.
* C165, C166 laws of merging and intersecting entries: lists by induction on the specification of a merge
  (`Lemmas/MergeLaws.lean`: `merge_assoc`, `merge_self`, `common_assoc`, `unique_common_assoc`), which the code
  refines (C20-C22); dictionaries by their lookups.  Stated with the getters and with the library's comparison.
  False for NULL lists (a merge makes an empty list) and for intersections with translations.
* C167 laws of merging documents: `docUnionList_assoc` over any entries whose merge respects likeness
  (`Lemmas/DocLaws.lean`), then C41 for the comparison.  Needs distinct ids: a first operand drops the second
  entry of an id, a second operand merges it (`C167_false`).
* C168 filter and merge: `merge_filter`; false if the shared name has different architectures.
* C169 intersection of documents: each list is a `filterMap` of the second document's list
  (`docIntersectList_shared`); the order does not matter without any condition on the ids.
* C170 filter and merge of documents: `filter_docUnionList`; false if the documents give a shared group
  different architectures.
* C171 equal documents are written the same: the output is a function of what the getters show
  (`xmlDoc_parts`, congruence of each writer); false since comparing skips `basearchonly` and
  architectures, and since the listing order of a dictionary depends on the order of the writes.
* C172 operations respect equality: lists related place by place stay related under `merge`, `common`
  and the set operations of the documents (`Rel2`); false for the filter by architecture, since
  comparing ignores the architectures of packages and group ids.
* C173, C174 sums of Python documents: C172 and C167 carried to the program level over `C140_made`
  (what every Python program's documents hold) and `C95_union`; C174 is false with two entries of one id.
* C175 saving and loading before adding: C96 twice, then C173; false where C96 is.
* C176 two filters in either order: the filter of a list of entries is a `filterMap` whose predicates do not
  change what the other looks at (`left_comm`); then the whole documents, then the Python programs.
* C177 filter and sum of Python documents: C170 carried to the program level; false where C170 is.
* C178 adding again: associativity (C167), merging with itself (C167), and that merging looks at entries and
  language packs of the second document only (`merge_second`).
* C179 a wider filter before a narrower one: the narrower criterion implies the wider one (`archKeep_sub`), for
  entries (`left_narrow`) and for their members (`filter_narrow`); then as C176.
* C180 order of the requested architectures: the two criteria are one function (`archKeep_set`), so the filters are.
* C181 more architectures leave more: a list filtered by a stronger criterion is a sublist of the list filtered by a
  weaker one (`left_less`, `members_less`); the specification `LessEntries` does not mention the filter.
