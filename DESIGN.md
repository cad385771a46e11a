# Formal model of Colorer-library in Lean 4

## Layout
`lean/Verif/<Area>/Model.lean` – executable model of the C++ (every definition cites file:lines in /repo/src/colorer).
`lean/Verif/<Area>/Spec.lean` – small independent specification (no reference to model helpers).
`lean/Verif/<Area>/Lemmas.lean` – helper lemmas.
`lean/Verif/<Area>/Props.lean` – the property theorems `Cxx_*`, the concrete non-vacuity `example`s, and
negative theorems (`Cxx_*_violated` / `..._counterexample`) where the shipped code violates the property.
A theorem that covers only part of a property ends in `_partial` and its docstring says what is missing.

## Trusted base
* Lean 4.33.0 kernel; axioms at most `propext`, `Classical.choice`, `Quot.sound` (see `#print axioms`, run by vcheck).
* The reading of the C++ into the model (nothing is compiled or run here).
* Pointers are modelled by list positions / indices; C++ allocation failure, threads and integer overflow
  of `int` line numbers/columns are not modelled (unbounded `Int`/`Nat`) unless the property is about them.
* Undefined behaviour (null dereference, out of bounds, division by zero, dangling) is a distinct outcome in
  the model wherever the modelled code can reach it.
* External code is a parameter: ICU/libxml2, `LineSource`, `RegionHandler` implementations of the application,
  and – in the TextParser model – the regular expression engine (an arbitrary function of its arguments).

## Plan per property
| id | modelled | proof |
|---|---|---|
| C01 C02 C05 | LineRegionsCompactSupport::addLineRegion as list surgery with end=-1 kept | invariant by induction over events + painter refinement |
| C03 | ring index, checkLine, slots vector | arithmetic of mod + frame lemmas, induction over ops |
| C04 | schemeStack, flowBackground | induction over well-nested event trees |
| C06 C48 | ParsedLineWriter loops, buffer of the style attribute | list induction, erase markup |
| C07 | TextLinesStore::loadFile loop with indices | induction, reconstruct |
| C08 C09 | KeywordList sort/substrIndex + searchKW loop | invariant of binary search, lexicographic order lemmas; negation witness for C09 |
| C10 | VTList as zipper | induction over op trees |
| C11 | ParseCache tree, searchLine loop | tree induction |
| C12 C13 | Outliner | induction over passes; negation witness for duplicates |
| C14 | region registry | induction over declarations |
| C15 C38 C43 | RegionMapper cache vector, definitions | cache invariant over histories |
| C16 C42 | assignParent of Styled/TextRegion | algebra |
| C17 | BitArray words as BitVec 32, CharacterClass pages | bit lemmas; negation witnesses for aligned ranges |
| C18 C37 C41 | encoder/decoder on bytes, getChars with its growing buffer | arithmetic; negation witness > U+FFFF |
| C19 C39 C47 | legacy UnicodeString operations, with and without the buffer | list lemmas |
| C20 C21 C40 C45 C46 C50 | file types, detection, catalogue | map lemmas, folds |
| C25 C26 C44 | HRC library loading, names, entities | map lemmas, fuel-free recursion on the set of unloaded types |
| C22 C23 C35 | BaseEditor window state machine with ghost freshness, abstract parser; fan-out | invariant over histories; negation witnesses |
| C24 | pair search loops, first over fixed lists (Editor/Pairs), then with every line asked for during the search (Editor/Lazy) in the editor with parser and store (Whole/Pairs) | loop invariant; ways of a zipper; the store keeps pair regions apart from backgrounds (LineRegions/Clean, Whole/Clean) |
| C27 | refcount map of shared sources | invariant over histories |
| C28 C30 C31 | CRegExp node tree and backtracking machine | machine invariants; relational (two-run) invariant for C30 |
| C29 | the same machine against an independent declarative matching relation | runs "land" on the stack with the preferred end: structural induction with continuations |
| C51 | the same machine | runs halt: structural induction, inner induction on the distance to the end of text |
| C55 | the compiler of expressions (setRELow, setStructs, createCharClass) | every element shortens the text; table bounds carried along the scan |
| C56 C57 | the notation as a separate syntax with text and meaning; the compiler on that text; the machine on the result | induction on the notation: what is read is the tree up to joined words and empty nodes, on which the meaning does not depend; then C29, C30, C51 |
| C32-C34 | TextParser recursion with an abstract regexp oracle, fuel | induction on fuel; simulation; negation witness for schemeStart |
| C36 C52 C54 | path strings, environment expansion, archive locations | list lemmas, relational specification with uniqueness |
| C53 | the error buffer | refinement to lines |
| C58 | BaseEditor with the modelled TextParser and the modelled compact store | simulation: the concrete editor follows the abstract one of C22, whose freshness is instantiated with pictures; splitting a parse (C33, C34); drawing resumed parses |
| C60 | the same parser; the relation "this scheme inherits that one, under these substitutions" | well-founded induction: lines left, columns left, recursion levels left; accessibility of the inheritance relation inside one search |
| C59 | the text parser, the matcher and the keyword lists in one model, objects with any history | answers of plain expressions are unique (C30), parses with agreeing answers are equal: induction on the derivation of a parse |
| C61 C62 | the bodies of schemes: every element kind, region tables, keyword lists, links and updateLinks | invariant over nested loads (fuel shown to suffice); the body against a separate reading of its elements |
| C63 C64 | the parser working on the tables of a loaded library | C61 gives the premises of C34, C58-C60; parses over a prefix of the scheme table are the same over the whole: induction on the derivation of a parse |
| C65-C67 | reading of catalogue, HRC sources with prototypes, colour scheme files; the file system, libxml2 and `stod` are parameters (`Outside`) | the loops against lists of elements; a run either is undefined or does what the sources say, then idle sources exclude the first |
| C68 | saveRegionMappings and HexToUInt | digits of a number, read back; refutations |
| C69 | what LibXmlReader takes from the tree of libxml2 | induction on a relation "differ only in comments and blanks" |
| C70 | the call-backs of MemoryFile.cpp with 32-bit integers, `unzip` around minizip's answers | simulation of an ideal file by any adaptive reader; refutations for places and pieces of 2 GB |
| C71 C73 | genOutput and the escaping writer on top of the line writers, the editor with the matcher and the loaded grammar | what every line writer writes is a relation `Wraps` between columns with marks and output; marks are those of colouring from scratch (C58, C63); a reader of HTML passes over the markup |
| C72 | selectType; comparing without case and detection are parameters | induction over lines, paths, types; exact law for the negated comparison |
| C74 | StreamWriter unit by unit | arithmetic of UTF-8; exact law |
| C75 | setLinkSource and the look-up | the table answers like the first declaration with the key: induction over documents |
| C76 | readArgs over C strings (reading behind the end is a failure), the usage text as grammar of words | case analysis of the tests, induction over the words |
| C77 | the static array RegExpStack with its size, count_elem per object; two threads interleaved by rounds of lowParse | the array refines the list stack; with C28, C30 for any history; invariant over schedules |
| C78 | `parseX`: the parser with exceptions that carry the members as they are at the throw (TextParser/Fault.lean) | projection onto `run`; a failing run is a run of the shorter range with `k` blocks still open, by induction over the recursion |
| C79 | legacy createCharClass, getEscapedChar, getHexNumber, categories, over BitArray (CharClass/Legacy.lean); the category tables are a parameter | every operation represents its set operation; induction over the written class; with C57: both builds agree |
| C80 | the same machine; `Re.ways` (RegExp/GroupsWritten.lean): a separate specification, for a written expression, of the ways a match may go and where each passes a group | a group is left alone by what is tried behind it unless the node is entered again: an invariant of the stack (`quiet`); induction over the chain with continuations; then the numbering of the notation |
| C81 | the same machine; `Re.passes` (RegExp/Marked.lean): the ways of a written expression with the place where each passes a mark | as C80, a mark in place of a group; the run is compared with one of the expression whose outermost bracket has no number (RegExp/Unclosed.lean): it differs by the closing of group 0 at the end only |
| C82 | Character.cpp over the tables of x_tables.h and x_charcategory2.h, copied by a script (Chars/Tables.lean), caseCompare, equalsIgnoreCase (Chars/Model.lean) | the tables are packed into numbers (Chars/Packed.lean, proved equal to the lists) and the kernel evaluates each law for all of the 65536 characters (the whole domain, not a sample); the rest is by induction on the texts and from C79, C31 |
| C83 | the entity loader of LibXmlReader with its static state (Io/Entities.lean); libxml2 is a client that asks for any sequence of entities | induction over the sequence; C54, C36 for the places |
| C84 | the formatter of log messages, the list of all log statements (generated from /repo), SimpleLogger with its stream, the end of workIt and main (Logging/) | induction over the format; relational specification with uniqueness; complete check of the list of statements; induction over histories |
| C85 C86 | the tables of x_encodings.h (generated, as numbers), TO_WCHAR/TO_CHAR, names, toBytes, getChars for pages, the stream constructor of CString with the recognition of encodings (Encodings/Pages, Detect) | complete checks of the tables in the kernel, list induction |
| C87 | RETest of the console tool with fgets/strtok, on the compiler and the matcher of C29/C56 (Tool/Tester) | induction over the lines typed, C56 for each expression; an invariant of the loop for the violation |
| C88 | file types as objects: loadFileType, unloadFileType, addPrototype, addType, the loads out of references, listTypes (Hrc/Life) | induction over the nested loads (measure: types not being loaded) and over the program |
| C89 | Encodings::toUnicodeString (ICU build), the standard input, forward of the console tool (Tool/Forward); the table of signatures of ICU is written down, its converters are a parameter assumed right for correct texts (shown satisfiable) | cases on the first characters, C74 for the output |
| C49 | painting and navigation of the console viewer | arithmetic, induction over keys |

## Code that violates a property (negations proved)
Every row is a theorem about the model of the unchanged code, with a concrete witness; the positive part is proved beside it.
| property | what goes wrong | theorem |
|---|---|---|
| C06 | a region that ends beyond the line end makes the writer read outside the string | `C06_violated_beyond_line_end` |
| C07 | loading a file after the standard input appends to the old lines | `C07_violated_load_after_stdin` |
| C09 | keyword search can miss / truncate a keyword | `C09_violated_first_keyword`, `C09_violated_ignore_case` |
| C10 | a scheme substituting itself: the search for a substitution never leaves the list | `C10_violated_self_substitution`, `..._crash` |
| C13 | off-by-one in endParsing: an item twice in the outline | `C13_violated_duplicate_item` |
| C14 | names are not unique when type names contain ':' | `C14_violated_colon_in_type_name` |
| C15 | first lookup for region number 0 throws | `C15_violated_region_zero` |
| C17 | character class ranges and operations at 32-bit boundaries, characters above U+FFFF | `C17_violated_*` |
| C18 C37 | characters above U+FFFF | `C18_violated_*`, `C37_violated_*` |
| C19 | equality ignoring case differs from comparison ignoring case | `C19_violated_case_equality` |
| C21 | a type is returned although none scores; the typeNo-th candidate is not the typeNo-th | `C21_violated_no_score`, `C21_violated_typeNo` |
| C22 | stale regions after scrolling up, for a line below the window, for an idle job after resizing; division by zero for an empty window; no regions after a query in an empty text | `C22_violated_*` |
| C24 | searchGlobalPair looks one line past the end of text | `C24_violated_past_the_end` |
| C24 | searchGlobalPair downwards misses a partner in the line just below the window | `LazyDemo.C24_violated_below_the_screen` |
| C26 | one unqualified name stands for two objects inside one type | `C26_violated_same_name_two_objects` |
| C27 | the XML reader never gives back its reference to an archive: the buffer stays in memory, and stale | `C27_violated_read_keeps`, `C27_violated_stale` |
| C28 | a match marked inside a look-behind lies before the position searched from | `C28_mark_in_a_look_behind` |
| C28 | a back trace to a group the start expression does not have reads outside the text | `C28_back_trace_of_an_unused_group_reads_outside` |
| C29 | counters are not restored on backtracking; groups of abandoned branches are reported; `$` with flag m; `\Y{name}` | `C29_counter_is_not_restored` and five more in RegExp/Wrong |
| C30 | `\m` `\M` marks survive a call | `C30_mark_survives_a_call`, `C30_mark_of_a_failed_attempt` |
| C31 | the prefilter loses matches with `^` and flag m, and with characters equal only in upper case | `C31_start_of_a_later_line_is_missed`, `C31_upper_case_match_is_missed` |
| C33 | replayed enters name the innermost scheme for all levels | `C33_violated_pseudo_scheme` |
| C34 | `~` (scheme start) and the recursion limit make a resumed parse differ from a full one | `C34_violated_scheme_start`, `C34_violated_recursion_limit` |
| C39 | trim of one visible character, replacing the empty pattern, search from beyond the end | `C39_violated_*` |
| C42 | a half-set markup pair is lost | `C42_violated_half_markup` |
| C43 | a freed style stays in the lookup cache | `C43_violated_dangling_style` |
| C45 C50 | detection from the text can recurse without end | `C45_violated_endless`, `C50_violated_endless` |
| C46 | listing an unknown class is undefined behaviour | `C46_violated_unknown_class` |
| C47 | append with a start offset, setLength beyond the length | `C47_violated_*` |
| C48 | a style without colours is not written, whatever its font flags | `C48_violated_bold_without_colour` |
| C51 | `/(a*)*b/` on "a" never returns | `C51_never_returns` |
| C52 | values of variables are expanded again; a value becomes part of the name before it | `C52_violated_value_expanded`, `C52_violated_name_grows` |
| C53 | an empty error message reads before the buffer | `C53_violated_empty` |
| C56 | `{x,3}` and `{3,2}` are accepted | `C56_not_a_number_is_accepted`, `C56_wrong_order_of_counts_is_accepted` |
| C57 | flag i in classes, `\S` and `\W` in classes, `\n` in a class, ranges in the wrong order | `C57_*` in RegExp/Compiled |
| C58 | field `scheme` of regions after a resumed parse; field `region` inside blocks without region | `C58_violated_scheme`, `C58_violated_region` |
| C60 | a scheme that inherits itself is accepted, parsing then never ends | `C60_violated_self_inherit` |
| C60 | `/(a\m)?/` in a grammar: the parser never gets past the line `ab` | `C60_violated_mark_on_one_way` |
| C65 | a catalogue that cannot be read leaves the colour schemes of the old one with the base path of the new one | `C65_violated_a_failed_load_changes_the_base` |
| C66 | a prototype naming a missing place cuts off the rest of its source, removes the older type of the name, and keeps block links from ever being resolved | `C66_violated_missing_place`, `C66_violated_links_are_never_resolved` |
| C66 | `std::filesystem_error` leaves loadCatalog; a replaced type keeps its regions and entities | `C66_violated_by_the_file_system`, `C66_violated_a_replaced_type_stays_in_part` |
| C67 | with COLORER_HRD set, the name of the scheme is a dangling pointer | `C67_violated_by_the_environment` |
| C68 | a saved scheme is no document; it has `define` for `assign`, other names for marks, styles in decimal | `C68_violated_*` |
| C69 | only the first piece of an element's text counts | `C69_violated_text_is_cut` |
| C70 | a place of 2 GB or more in a damaged archive leads to a read before the buffer; short members are filled with zeros; empty members refused | `C70_violated_*` |
| C71 | a wrapped page with a text scheme without texts follows a null pointer | `C71_violated_page_texts` |
| C72 | a type asked for by the beginning of its name: the first type NOT beginning so is taken; mixed separators | `C72_violated_*` |
| C74 | characters outside the BMP (emoji) vanish from written files | `C74_violated_emoji` |
| C75 | a link for `a--s` is given to `a` in scheme `s` | `C75_violated_key_collision` |
| C76 | `-ls` without a value becomes `-l`; `-ld` without `-t` follows a null pointer | `C76_violated_missing_links`, `C76_violated_load_without_type` |
| C77 | two matches at once share one stack: a match is lost, a false one found; destroying a factory takes the stack away | `C77_two_threads_lose_a_match`, `C77_two_threads_find_a_match_that_is_none`, `C77_clearing_under_a_running_match` |
| C78 | a parse that fails inside a block leaves that block's scheme as the scheme of the root: all later parses of the same parser are wrong | `C78_violated_open_block` |
| C79 | built-in strings: `{UNASSIGNED}` removes what stands before it, `{Cn}` is empty, flag `i` does not reach ranges and subtracted classes, reads behind the end of the text, `\x{4-}` is a number, `&&[…]` undefined | `C79_violated_*` |
| C80 | a group keeps what it matched on a way that was given up: `/(a)?ab/`, `/(a)*ab/`; a group written inside another may lie outside of it: `/((a)b)*a/` | `C80_a_group_that_was_given_up`, `C80_a_round_that_was_given_up` |
| C81 | a mark on a way that was given up sets the match all the same: `/(a\M)?ab/`, `/a\Mb\|ac/`, `/(a\M)*ab/` | `C81_a_mark_that_was_given_up`, `C81_a_round_that_was_given_up` |
| C82 | built-in strings: large and small Roman numerals and circled letters are each other's upper and lower case, so `/Ⅰ/i` does not match the small one; `/s/i` does not match the long s, `/(s\|t)/i` does; `/[\l]/i` accepts capital letters, `/\l/i` does not | `C82_violated_*` |
| C83 | in archives: an entity declared in a file of a subdirectory is looked for beside the source; `env:` entities are looked for inside the archive; an entity `jar:x` without '!' throws through libxml2 | `C83_violated_*` |
| C84 | the tool uses the text of an exception as a format: a `%` in it (a colour scheme named `50%`) terminates the tool, backslashes vanish; after the log file could not be opened once, everything is lost | `C84_violated_*` |
| C85 | a C string is cut at the byte 0x98 (UTF-8 of U+0418 is D0 98); to_stdstr writes Windows-1251, to_unistr reads UTF-8; characters above U+FFFF are looked up in the next page or outside | `C85_violated_*` |
| C86 | an XML declaration with an encoding makes the stream unreadable (CString.cpp:61 calls the constructor (text, length, encoding) with (text, start, length)); short streams, numbers 8 and below -6 are read outside | `C86_violated_*` |
| C87 | the tester never ends: strtok leaves an empty line as "\n", and at the end of the input it prompts for ever; with no input it looks at an undetermined byte; the empty text cannot be tested; the groups after "error" may be old; a line of more than 253 bytes is split | `C87_violated_*` |
| C88 | a source that declares its own type again deletes it while it is being loaded (use after free); a pointer kept over such a declaration dangles; two sources that declare each other's types again are loaded without end; the list of types shifts under `-ll` | `C88_violated_*` |
| C89 | a UTF-8 text that begins with +/v8, +/v9, +/v+ or +/v/ is read as UTF-7; UTF-16 that begins with U+0000 as UTF-32; an empty standard input is an error (null data pointer) | `C89_violated_*` |
| C54 | absolute archives with a base, archives beside archives, '!' in names | `C54_violated_*` |

## What is modelled, by area
* **LineRegions** – both stores (plain and compact), ring window, scheme stack, backgrounds. Not modelled: memory of the nodes.
* **Keywords** – KeywordList (sort, substrIndex) and searchKW. Not modelled: ICU full case folding.
* **VTList** – push/pop/pushvirt/popvirt/store/restore as a zipper.
* **ParseCache** – the block tree and searchLine.
* **Outliner** – Outliner add/modify/clear and level computation.
* **Styles** – StyledRegion / TextRegion assignParent, RegionMapper lookup cache, StyledHRDMapper/TextHRDMapper tables.
* **CharClass** – BitArray and CharacterClass set operations; the legacy reader of classes (Legacy*.lean), where a read behind the end of the text and a shift by 32 are
  outcomes. Not modelled: the generated Unicode tables.
* **Encodings** – toBytes, getChars, CString decoding for the Unicode encodings; the one byte code pages (generated tables) and the recognition of encodings.
* **Strings** – the legacy UnicodeString: comparing, searching, replacing, and the building functions with their buffer.
* **Chars** – the legacy `Character` functions and their tables. Tables.lean and Packed.lean were generated by a script from x_tables.h and x_charcategory2.h (trusted: that
  the copy is faithful; Packed is proved equal to Tables). Not modelled: `toNumericValue` and functions nothing calls.
* **Hrc** – loadFileType / addType / addTypeRegion / addTypeEntity / addTypeImport / addScheme with the bodies of schemes (inherit, regexp, block,
  keywords, virtual; region tables, entities, priorities, word division), updateLinks, qualifyOwnName, qualifyForeignName, useEntities, getNCRegion,
  hasParent. The recursion of nested loads is explicit. Parameters (`World`): the elements the XML reader delivers for each type, the order in which
  the hash map of schemes is walked (any permutation), what qsort does (any permutation), the parameters of types, the character functions.
  `Life` has the types as objects, with prototypes inside the sources of types and unloading during a load, but not the contents of the types.
  Not modelled: XML reading, exceptions that leave `updateStarted` set (Factory has them for start-up).
* **FileTypes** – parameters, scores, chooseFileType, prototype registration, catalogue of colour schemes, sampling of the text.
  Scores are exact integers instead of `double` with a tolerance.
* **Viewer** – TextLinesStore, the three line writers, painting and navigation of TextConsoleViewer. `Compose` joins the writers with the
  compact store.
* **Tool** – the console tool: readArgs, loadType, genOutput, selectType, setLinkSource, HtmlEscapesWriter, StreamWriter. Assumed of ICU: `u_strToUTF8` of half a
  surrogate pair reports an error and leaves the length 0; `caseCompare` is 0 exactly for strings equal after folding. The tester of expressions (Tester); the
  listing of types is in Hrc/Life. Not modelled: profiling, the interactive viewer's console calls, failures of the file system.
* **Editor** – BaseEditor: validation, events, pair search, fan-out, sampling. The parser is abstract (see the header of the model).
* **TextParser** – parse, events, searchIN/RE/BL/Match, colorize and the cache they build; regular expressions, keyword lists and
  `breakParse` are arbitrary oracles. Not modelled: missing handler / source / scheme; exceptions other than a missing line.
* **RegExp** – CRegExp: optimize, metas, lowParse with its stack and the fields it changes in the nodes, quickCheck, parseRE, parse;
  the compiler setRELow / setStructs with the ICU createCharClass and the number and name readers. Not modelled: errors of setStructs are not
  told apart (the code reports EBRACKETS for all), `int` overflow of counts (the legacy createCharClass: CharClass).
  Character tables are parameters. Growth of the static stack and its sharing between threads are not modelled.
* **Engine** – TextParser, CRegExp and KeywordList in one model: the oracles of TextParser are answered by the matcher and the keyword search,
  for objects with arbitrary histories of earlier calls. `Engine/Editor` puts the editor and the line store on top (C58 without oracles),
  `Engine/Loaded`, `Later`, `Screen` put a loaded library below (C63, C64).
  Not modelled: two threads inside one expression at once.
* **Factory/Says, Hrc/Default** – the same models once more, said attribute by attribute (values of colour-scheme assignments, items of a `<type>`, names ending in `:default`, word division), because mutants of these readers survived.
* **Factory** – start-up: CatalogParser, ParserFactory (loadCatalog, loadHrc, createStyledMapper, createTextMapper), the prototypes of
  HrcLibrary (parseHRC to addPrototypeParameters, unloadFileType), reading and saving of colour schemes, LibXmlReader's way through the tree.
  The types of the sources are handed to the model of Hrc. Parameters: file system, libxml2, `stod`. Not modelled: logging, leaked objects, the
  XML text itself, prototypes inside the sources of types.
* **Io** – locations (InputSource, FileInputSource for Unix, archive locations), expansion of environment variables, shared sources,
  the error buffer of the XML reader. Not modelled: Windows paths, reading files, unzipping, libxml2.
* **Whole** – BaseEditor, TextParser and the compact store in one model: nothing is assumed about the collaborators. Regular expressions and
  keyword lists are the oracles of TextParser, assumed not to depend on the history (`Pure`) and to report proper ranges (`RangesOk`).
  `breakParse` never interrupts. Specification: `Paints` (a parse from scratch drawn by the painter of LineRegions/Spec), `Shows`.
