{"id": "C01", "title": "Compact line regions never overlap", "statement": "When the compact region store is used (BaseEditor::setRegionCompact(true), the default for viewers), the list returned by getLineRegions(lno) has, whatever sequence of region events was delivered for that line since its clearLine, all non-special regions first, sorted by start, each with start<=end (or end=-1 meaning 'to end of line' on the last of them only), no two of them overlapping, and special (pair) regions last.", "quantifier": "every sequence of enterScheme/leaveScheme/addRegion events with arbitrary columns, overlaps, zero-width and out-of-order ranges, for a line after clearLine", "why_tests_cant": "the insertion routine mutates a doubly linked list with seven interacting cases; the set of event sequences is infinite and interesting overlaps need three or more nested events", "anchors": ["src/colorer/handlers/LineRegionsCompactSupport.cpp:LineRegionsCompactSupport::addLineRegion", "src/colorer/handlers/LineRegionsSupport.cpp:clearLine,addRegion,enterScheme,leaveScheme", "src/colorer/editor/BaseEditor.h:setRegionCompact"]}
{"id": "C02", "title": "Compact line regions paint like layers", "statement": "For every column, the region shown by the compact store is the one of the most recently reported event that covers the column (a region covers [start,end), a scheme change covers from its column to the end of line); nothing is lost and no column that was covered becomes uncovered.", "quantifier": "every event sequence for a line, every column", "why_tests_cant": "equivalence of an in-place splitting algorithm with layered painting is a refinement over all event histories; tests only sample a few overlaps", "anchors": ["src/colorer/handlers/LineRegionsCompactSupport.cpp:LineRegionsCompactSupport::addLineRegion"]}
{"id": "C03", "title": "Line store window is a faithful sliding map", "statement": "With the line store sized for n lines starting at first line f, regions stored for line L (f<=L<f+n) are returned exactly by getLineRegions(L); two different lines of the window never share storage, events for lines outside the window neither are stored nor disturb stored lines, and moving the window keeps the regions of the lines that stay inside it.", "quantifier": "every n, every sequence of setFirstLine/clearLine/add operations", "why_tests_cant": "aliasing bugs in a ring buffer appear only for particular combinations of size, first line and line number; the domain is unbounded", "anchors": ["src/colorer/handlers/LineRegionsSupport.cpp:getLineIndex,checkLine,getLineRegions,setFirstLine,clearLine"]}
{"id": "C04", "title": "Background after a block is the enclosing block's background", "statement": "After any well-nested sequence of enterScheme/leaveScheme the store's current background (used to fill the next line and to continue after the block) is the one that was current before the sequence; a scheme without region is transparent: entering and leaving it changes no stored region of the line.", "quantifier": "every well-nested event sequence of any depth", "why_tests_cant": "depth and interleaving are unbounded", "anchors": ["src/colorer/handlers/LineRegionsSupport.cpp:startParsing,enterScheme,leaveScheme,clearLine"]}
{"id": "C05", "title": "Pair (special) regions are kept verbatim", "statement": "Special regions reported for a line are all kept, in the order reported, with unchanged bounds, after all the ordinary regions, no matter which ordinary regions are added before or after.", "quantifier": "every event sequence for a line", "why_tests_cant": "later ordinary insertions walk over and unlink nodes in the same list; only an invariant rules out losing a special node", "anchors": ["src/colorer/handlers/LineRegionsCompactSupport.cpp:addLineRegion", "src/colorer/handlers/LineRegionsSupport.cpp:addRegion"]}
{"id": "C06", "title": "Writers reproduce the text", "statement": "Writing a line with ParsedLineWriter (markup, html RGB and token variants) emits exactly the characters of the line, in order and each once, between the inserted markup, for any list of regions the compact store can produce.", "quantifier": "every line text and every sorted non-overlapping region list with arbitrary columns (also beyond the line end) and specials", "why_tests_cant": "character loss or duplication depends on positions of gaps, empty regions, transparent regions and out-of-range ends", "anchors": ["src/colorer/viewer/ParsedLineWriter.cpp:tokenWrite,markupWrite,htmlRGBWrite,htmlWrite"]}
{"id": "C07", "title": "Text is split into lines without loss", "statement": "Loading a text splits it at CR, LF and CRLF: no line contains a terminator, the number of lines is the number of terminators plus one, and joining the lines with the original terminators gives the text back.", "quantifier": "every text", "why_tests_cant": "all interleavings of CR and LF in texts of any length", "anchors": ["src/colorer/viewer/TextLinesStore.cpp:TextLinesStore::loadFile,getLine,getLineCount"]}
{"id": "C08", "title": "A reported keyword is a keyword of the text", "statement": "When a keyword list reports a match at a position, the text there equals one of the list's keywords (case-folded when the list ignores case), it lies within the allowed length, the region reported is that keyword's, and for non-symbol keywords the neighbouring characters are word boundaries; the search terminates and never looks outside the list or the text.", "quantifier": "every sorted keyword list, text, position and limit", "why_tests_cant": "binary search with a fallback chain over an arbitrary list", "anchors": ["src/colorer/parsers/TextParserImpl.cpp:searchKW", "src/colorer/parsers/KeywordList.cpp:sortList,substrIndex"]}
{"id": "C09", "title": "Keyword search finds the longest keyword", "statement": "If some symbol keyword of a case-sensitive list equals the text at the position, the search reports the longest such keyword.", "quantifier": "every keyword list and text", "why_tests_cant": "completeness over all lists; the failing lists need a particular position of a short keyword in sort order", "anchors": ["src/colorer/parsers/TextParserImpl.cpp:searchKW", "src/colorer/parsers/KeywordList.cpp:substrIndex"]}
{"id": "C10", "title": "Virtual scheme substitution is undone on return", "statement": "After any completed nested search the parser's list of active inheritance substitutions is exactly what it was before, and saving then restoring the list (across separate parse calls) gives the same active substitutions.", "quantifier": "every well-nested sequence of inherit/virtual operations", "why_tests_cant": "the list is edited in place with a moving 'current' pointer; nesting is unbounded", "anchors": ["src/colorer/parsers/TextParserHelpers.cpp:VTList::push,pop,pushvirt,popvirt,store,restore,clear"]}
{"id": "C11", "title": "Cache lookup finds the enclosing block", "statement": "Looking up a line in the parse cache returns the innermost cached block whose line range contains the line, together with the last sibling/child that starts at or before it, so that parsing restarts in the right scheme.", "quantifier": "every cache tree and line number", "why_tests_cant": "tree shape and depth unbounded", "anchors": ["src/colorer/parsers/TextParserHelpers.cpp:ParseCache::searchLine"]}
{"id": "C12", "title": "Outline nesting levels", "statement": "The level computed for an outline item is the number of enclosing items with strictly smaller HRC level on the current chain; levels along the displayed tree increase by at most one and siblings never swap.", "quantifier": "every sequence of item levels", "why_tests_cant": "history dependent: depends on the whole sequence of previous levels", "anchors": ["src/colorer/editor/Outliner.cpp:Outliner::manageTree"]}
{"id": "C13", "title": "Outline holds one item per line and forgets modified lines", "statement": "The outline is always ordered by line with at most one item per line from one pass, and after modifyEvent(top) contains no item at or below line top; re-parsing does not create duplicates.", "quantifier": "every sequence of parse passes and modifications", "why_tests_cant": "depends on history of passes; the duplicate appears only when a pass ends exactly on a boundary line", "anchors": ["src/colorer/editor/Outliner.cpp:startParsing,endParsing,clearLine,addRegion,modifyEvent,manageTree"]}
{"id": "C14", "title": "Region registry is dense, unique and acyclic", "statement": "Registered regions are numbered 0..n-1 in registration order, names are unique, a region's parent was registered earlier (so ancestor chains are finite), lookups by number and by name agree, and hasParent(x) is true exactly for the region itself and its ancestors.", "quantifier": "every sequence of region declarations (duplicates, unknown parents)", "why_tests_cant": "history of declarations is unbounded and includes failing declarations", "anchors": ["src/colorer/parsers/HrcLibraryImpl.cpp:addTypeRegion,getRegion,getRegionCount", "src/colorer/Region.h:hasParent"]}
{"id": "C15", "title": "Style lookup finds the nearest ancestor's style", "statement": "getRegionDefine(region) returns the style assigned to the region or else to its nearest ancestor having one, whatever lookups were made before (the internal cache is transparent) as long as styles are not changed.", "quantifier": "every region hierarchy, every style table, every sequence of earlier lookups", "why_tests_cant": "cache content depends on the full history of lookups", "anchors": ["src/colorer/handlers/RegionMapper.cpp:getRegionDefine", "src/colorer/Region.h"]}
{"id": "C16", "title": "Colour inheritance fills only unset fields", "statement": "Resolving a colour style against its background keeps every colour the region sets itself and takes the unset ones from the background, ORs the font style bits, is idempotent, and resolving against a chain of backgrounds is associative.", "quantifier": "every style value", "why_tests_cant": "algebraic law over all values and chains", "anchors": ["src/colorer/handlers/StyledRegion.cpp:assignParent"]}
{"id": "C17", "title": "Character classes denote the set they spell", "statement": "Adding, removing, intersecting and subtracting characters, ranges and classes makes membership (used for every character class test of a regular expression) equal to the corresponding set operation.", "quantifier": "every class expression and every character", "why_tests_cant": "bit-level boundary cases: 65536 characters and all pairs of range ends", "anchors": ["src/colorer/strings/legacy/BitArray.cpp", "src/colorer/strings/legacy/CharacterClass.cpp"]}
{"id": "C18", "title": "UTF-8 output decodes to the same characters", "statement": "Text written in UTF-8 and read back through the UTF-8 decoder is the same text.", "quantifier": "every text", "why_tests_cant": "all 2^16 (and beyond) characters and every sequence length", "anchors": ["src/colorer/strings/legacy/Encodings.cpp:toBytes/ toUTF8Bytes", "src/colorer/strings/legacy/CString.cpp:CString constructor UTF-8 branch"]}
{"id": "C19", "title": "String comparison is a total order", "statement": "UnicodeString::compare is a total order (reflexive, antisymmetric, transitive, total), equal to lexicographic order of the character codes, and returns only -1, 0, 1; equality, startsWith and indexOf agree with it.", "quantifier": "every pair/triple of strings", "why_tests_cant": "laws over all strings; keyword lists and maps rely on transitivity", "anchors": ["src/colorer/strings/legacy/UnicodeString.cpp:compare,caseCompare,startsWith,indexOf,equals"]}
{"id": "C20", "title": "File type parameters: user value shadows default", "statement": "Reading a parameter returns the user value if one was set, else the default; resetting the user value brings the default back; setting one parameter changes no other; unknown parameters are reported as missing.", "quantifier": "every sequence of parameter operations", "why_tests_cant": "history dependent", "anchors": ["src/colorer/parsers/FileTypeImpl.cpp:addParam,getParamValue,setParamValue,setParamDefaultValue"]}
{"id": "C21", "title": "File type choice maximises the score", "statement": "chooseFileType returns a type with the highest priority for the file name and first line, the first registered one among equal scores (or the typeNo-th candidate), or nothing if no type scores.", "quantifier": "every list of types and scores", "why_tests_cant": "every ordering of scores", "anchors": ["src/colorer/parsers/HrcLibraryImpl.cpp:chooseFileType", "src/colorer/parsers/FileTypeImpl.cpp:getPriority"]}
{"id": "C22", "title": "The editor returns up-to-date regions for visible lines", "statement": "After any history of edits (modifyEvent), window moves, line count changes and idle jobs, getLineRegions(lno) for a visible line returns the regions of the latest text.", "quantifier": "every sequence of editor notifications and queries", "why_tests_cant": "the lazily re-parsed window is a state machine whose stale states need specific histories", "anchors": ["src/colorer/editor/BaseEditor.cpp:validate,getLineRegions,modifyEvent,visibleTextEvent,lineCountEvent,idleJob"]}
{"id": "C23", "title": "The invalid boundary is never moved past unparsed text", "statement": "The editor's valid prefix only grows by parsing: a modification at line t makes everything from t invalid, an idle job only extends the parsed prefix, and parsing with a read-only cache never starts before the valid boundary is reached.", "quantifier": "every sequence of editor operations", "why_tests_cant": "history dependent", "anchors": ["src/colorer/editor/BaseEditor.cpp:validate,modifyEvent,idleJob"]}
{"id": "C24", "title": "Bracket matching finds the balanced partner", "statement": "searchLocalPair/searchGlobalPair returns the first position in the search direction where openings and closings balance, within the scanned range, or none.", "quantifier": "every sequence of pair regions and every start position", "why_tests_cant": "nesting depth unbounded, forward and backward scanning", "anchors": ["src/colorer/editor/BaseEditor.cpp:getPairMatch,searchLocalPair,searchGlobalPair"]}
{"id": "C25", "title": "Entity expansion", "statement": "Expanding %name; entities in a regular expression replaces every known entity once, keeps everything else, leaves text without entities unchanged and always terminates.", "quantifier": "every text and entity table", "why_tests_cant": "all placements of % and ; and unknown names", "anchors": ["src/colorer/parsers/HrcLibraryImpl.cpp:useEntities"]}
{"id": "C26", "title": "Name qualification", "statement": "An unqualified name is resolved first in the declaring type then in the imported types in import order; a qualified name is used as is if it exists; the same name always resolves to the same object.", "quantifier": "every import list and every set of declared names", "why_tests_cant": "resolution order over all tables", "anchors": ["src/colorer/parsers/HrcLibraryImpl.cpp:qualifyOwnName,qualifyForeignName,checkNameExist"]}
{"id": "C27", "title": "Shared input buffers live exactly as long as they are used", "statement": "A shared XML source is created on first request, reused by later requests for the same file, and removed exactly when its last user releases it.", "quantifier": "every interleaving of acquire/release for any set of files", "why_tests_cant": "history dependent resource counting", "anchors": ["src/colorer/xml/libxml2/SharedXmlInputSource.cpp"]}
{"id": "C28", "title": "Regular expression matching stays inside the text", "statement": "Whatever compiled expression, text, start position and end inside the text (and back trace whose groups lie inside its own text), and whatever state earlier calls left in the object and in the result structure, CRegExp::parse never reads a character outside the strings, and after success every numbered and named group is unset or an ordered pair of positions inside the text; so is the whole match.", "quantifier": "every expression, text, start/end position, object state", "why_tests_cant": "backtracking state space is unbounded", "anchors": ["src/colorer/cregexp/cregexp.cpp:lowParse,checkMetaSymbol,parseRE,parse"]}
{"id": "C29", "title": "A reported match is a match, and a match that is there is reported", "statement": "CRegExp::parse returns true exactly if the expression matches the text at the start position (or, when the search moves, at some position from there to the end), where matching is the usual meaning of concatenation, alternation, groups, classes, look-ahead/behind, back traces, greedy and lazy repetition. On success [s(0), e(0)) is such a match, it begins at the first position where there is one, and its end is the one the priorities choose (earlier alternative first; more repetitions first unless lazy).", "quantifier": "every expression, text, start and end position, earlier state of the object", "why_tests_cant": "the explicit backtracking stack reaches arbitrarily many configurations", "anchors": ["src/colorer/cregexp/cregexp.cpp:lowParse,check_stack,insert_stack,parseRE,parse"]}
{"id": "C30", "title": "Matching does not depend on earlier matches", "statement": "The result of CRegExp::parse depends only on the expression and the arguments, not on which texts the object was used on before.", "quantifier": "every sequence of parse calls on one object", "why_tests_cant": "history dependent", "anchors": ["src/colorer/cregexp/cregexp.cpp:parse,parseRE,checkMetaSymbol"]}
{"id": "C31", "title": "The first-character prefilter is invisible", "statement": "Skipping positions by the precomputed first character never changes the result of a search.", "quantifier": "every expression, text, position, flags", "why_tests_cant": "soundness of an optimisation over all inputs", "anchors": ["src/colorer/cregexp/cregexp.cpp:optimize,quickCheck,parseRE"]}
{"id": "C32", "title": "Region events follow the handler protocol", "statement": "TextParser::parse calls startParsing once first, endParsing once last, clearLine exactly once for each parsed line before any event of that line, and events' line numbers never decrease and stay in [from, from+num).", "quantifier": "every scheme, text, range and cache state, for every regular expression behaviour", "why_tests_cant": "recursive parser with unbounded nesting and re-entrancy", "anchors": ["src/colorer/parsers/TextParserImpl.cpp:parse,colorize,searchMatch,searchBL", "src/colorer/RegionHandler.h"]}
{"id": "C33", "title": "Scheme events are well nested", "statement": "In the event stream every leaveScheme closes the most recent open enterScheme with the same region and scheme, the number of leaves never exceeds enters (including the pseudo enters replayed from the cache).", "quantifier": "every scheme, text and range", "why_tests_cant": "recursion depth and interleaving unbounded", "anchors": ["src/colorer/parsers/TextParserImpl.cpp:searchBL,enterScheme,leaveScheme,fillInvisibleSchemes"]}
{"id": "C34", "title": "Incremental parsing equals full parsing", "statement": "Parsing lines [k,m) with the cache of an earlier full parse of [0,n) delivers for these lines the same region events as the full parse.", "quantifier": "every grammar, every text and every restart line", "why_tests_cant": "the cached state must determine the rest of the run; only specific grammars expose state missing in the cache", "anchors": ["src/colorer/parsers/TextParserImpl.cpp:parse,searchBL", "src/colorer/parsers/TextParserHelpers.cpp:ParseCache"]}
{"id": "C35", "title": "Handlers and listeners are notified in order", "statement": "Each event is delivered to the line store first and then to every registered handler in registration order, exactly once per registration; removing a handler removes exactly one registration.", "quantifier": "every sequence of add/remove/event operations", "why_tests_cant": "history dependent", "anchors": ["src/colorer/editor/BaseEditor.cpp:addRegionHandler,removeRegionHandler,startParsing..leaveScheme"]}
{"id": "C36", "title": "Relative locations", "statement": "Resolving a relative location against a base replaces the part after the base's last separator; an absolute location is returned unchanged; resolution never reads outside the strings.", "quantifier": "every pair of paths", "why_tests_cant": "all placements of separators", "anchors": ["src/colorer/io/InputSource.cpp:getAbsolutePath,isRelative"]}
{"id": "C37", "title": "UTF-16/UTF-32 output encodes each character", "statement": "Text written in UTF-16/UTF-32 (LE/BE) encodes every character so that it can be decoded again.", "quantifier": "every text", "why_tests_cant": "all characters", "anchors": ["src/colorer/strings/legacy/Encodings.cpp:toBytes"]}
{"id": "C38", "title": "Style definitions: the last definition wins", "statement": "After any sequence of setRegionDefine calls and loads, the style of a region name is the last one defined for it, other names are unaffected.", "quantifier": "every sequence of definitions", "why_tests_cant": "history dependent", "anchors": ["src/colorer/handlers/StyledHRDMapper.cpp", "src/colorer/handlers/TextHRDMapper.cpp", "src/colorer/handlers/RegionMapper.cpp:getRegionDefine(name)"]}
{"id": "C39", "title": "String editing helpers", "statement": "trim removes exactly leading and trailing whitespace; findAndReplace replaces all non-overlapping occurrences left to right; indexOf returns the first and lastIndexOf the last occurrence.", "quantifier": "every string", "why_tests_cant": "all strings and patterns incl. empty and one-character ones", "anchors": ["src/colorer/strings/legacy/UnicodeString.cpp:trim,findAndReplace,indexOf,lastIndexOf"]}
{"id": "C40", "title": "Prototype registration", "statement": "The list of file types shown to the user contains exactly the registered prototypes, once per name, in registration order, packages excluded.", "quantifier": "every sequence of prototype/package declarations incl. duplicates", "why_tests_cant": "history dependent", "anchors": ["src/colorer/parsers/HrcLibraryImpl.cpp:addPrototype,enumerateFileTypes,getFileType,unloadFileType"]}
{"id": "C41", "title": "String conversion stays inside its buffer", "statement": "UnicodeString::getChars(encoding) writes, for any text and any Unicode encoding, exactly the concatenated encodings of the characters followed by one zero byte, and never writes outside the buffer it grows on the way.", "quantifier": "all texts, lengths and encodings", "why_tests_cant": "the growth rule (local_len*length)/i+8 interacts with the position of multi-byte characters; only induction over the text covers every mix", "anchors": ["strings/legacy/UnicodeString.cpp: UnicodeString::getChars", "strings/legacy/Encodings.cpp: Encodings::toBytes"]}
{"id": "C42", "title": "Markup inheritance fills only unset fields", "statement": "Resolving a text (markup) style against its background keeps every opening and closing markup the region sets itself and takes the unset ones from the background; resolution is idempotent and associative.", "quantifier": "every markup style value", "why_tests_cant": "algebraic law over all values and chains", "anchors": ["src/colorer/handlers/TextRegion.cpp:assignParent"]}
{"id": "C43", "title": "Style changes take effect", "statement": "After any history of style definitions, loads and lookups, looking up the style of a region returns a live style object holding the last value defined for the region's own name, or for its nearest ancestor that has one.", "quantifier": "every interleaving of definitions, loads and lookups, every region forest", "why_tests_cant": "depends on the whole history (what was looked up before each change)", "anchors": ["src/colorer/handlers/RegionMapper.cpp:getRegionDefine", "src/colorer/handlers/StyledHRDMapper.cpp:setRegionDefine", "src/colorer/handlers/StyledHRDMapper.cpp:loadRegionMappings"]}
{"id": "C44", "title": "Loading types always terminates", "statement": "Whatever the HRC sources contain (cyclic imports, mutual references, unreadable or missing sources), loading a type or looking a region up returns, never uses a type that does not exist, and leaves no type marked as being loaded.", "quantifier": "all sets of type sources, all sequences of loads and lookups", "why_tests_cant": "cycles of any length through imports, region parents, entities and schemes; a test sees a few of them", "anchors": ["src/colorer/parsers/HrcLibraryImpl.cpp:loadFileType", "src/colorer/parsers/HrcLibraryImpl.cpp:addType", "src/colorer/parsers/HrcLibraryImpl.cpp:qualifyForeignName"]}
{"id": "C45", "title": "Detection from the text", "statement": "Choosing a file type by content looks at whole lines up to the line and character limits, repeats with the limits the detected type asks for, ends, and returns a type that was detected on the amount of text it asks for.", "quantifier": "all texts, limits, type libraries", "why_tests_cant": "limits that depend on the detected type form arbitrary iteration graphs", "anchors": ["src/colorer/editor/BaseEditor.cpp:chooseFileTypeCh"]}
{"id": "C46", "title": "Colour scheme catalogue", "statement": "A colour scheme is found by class and name exactly if the catalogue lists it, the first listed one wins, an unknown one is reported by an exception, and the instances of a class are listed in catalogue order.", "quantifier": "all catalogues and queries", "why_tests_cant": "all orders and duplicates of entries", "anchors": ["src/colorer/parsers/ParserFactoryImpl.cpp:addHrd", "src/colorer/parsers/ParserFactoryImpl.cpp:getHrdNode", "src/colorer/parsers/ParserFactoryImpl.cpp:enumHrdInstances"]}
{"id": "C47", "title": "Building strings stays inside the buffer", "statement": "Any sequence of appends, part appends, length changes, assignments and trims on a string yields exactly the expected text and never accesses memory outside the string's buffer.", "quantifier": "all sequences of building operations and texts", "why_tests_cant": "growth boundaries depend on the whole history of lengths", "anchors": ["src/colorer/strings/legacy/UnicodeString.cpp:append", "src/colorer/strings/legacy/UnicodeString.cpp:setLength"]}
{"id": "C48", "title": "The HTML style attribute is complete", "statement": "For every style, the generated HTML style attribute lists every colour and font flag that is set, is never truncated by the fixed buffer it is built in, its colour digits read back as the colour, and an opening tag is written exactly when a closing tag is.", "quantifier": "every style value (all 32 bit colours and flag combinations)", "why_tests_cant": "2^96 style values; the buffer bound must hold for all of them", "anchors": ["src/colorer/viewer/ParsedLineWriter.cpp:writeStyle,writeStart,writeEnd"]}
{"id": "C49", "title": "The console viewer paints and scrolls inside its limits", "statement": "A region colours exactly the screen columns that show it, never a cell of another row; whatever keys are pressed and however the window is resized, the view stays inside the text and announces only existing lines to the editor.", "quantifier": "every region, scroll position, window size and key sequence", "why_tests_cant": "unbounded key histories and geometries", "anchors": ["src/colorer/viewer/TextConsoleViewer.cpp:view"]}
{"id": "C50", "title": "Type detection ends and uses the sample the chosen type asks for", "statement": "chooseFileType shows detection the first lines of the text, cut to the requested number of lines and characters, and ends with a type that was chosen from a sample of the size that type's own parameters firstlines and firstlinebytes request.", "quantifier": "every text, every set of types and parameters", "why_tests_cant": "the recursion depends on the parameters of all installed types and on the text", "anchors": ["src/colorer/editor/BaseEditor.cpp:chooseFileType,chooseFileTypeCh"]}
{"id": "C51", "title": "Matching terminates", "statement": "CRegExp::parse returns, for every compiled expression and every text.", "quantifier": "every expression, text, start and end position", "why_tests_cant": "non-termination cannot be observed by running; termination must hold for every expression and text", "anchors": ["src/colorer/cregexp/cregexp.cpp:lowParse,check_stack,insert_stack"]}
{"id": "C52", "title": "Environment variables in locations", "statement": "In a location, every reference to an environment variable ($name, ${name}) is replaced once by the value of the variable; references to unset variables and all other characters are kept; the text of a value is not interpreted again; the expansion always ends.", "quantifier": "every location and every environment", "why_tests_cant": "all positions of references, all values", "anchors": ["src/colorer/utils/Environment.cpp:expandSpecialEnvironment,expandEnvironment,expandEnvByRegexp"]}
{"id": "C53", "title": "XML errors are logged line by line, inside the buffer", "statement": "Whatever errors the XML library reports, in whatever pieces, the library logs exactly the lines they form, in order, each cut to 4095 characters, and never reads or writes outside its buffer.", "quantifier": "every sequence of error reports", "why_tests_cant": "history dependent buffer state, all lengths", "anchors": ["src/colorer/xml/libxml2/LibXmlReader.cpp:xml_error_func"]}
{"id": "C54", "title": "Locations inside archives", "statement": "A location jar:archive!file names the file in the archive; a relative location read from inside an archive names a file of the same archive, next to the one it is read from; an absolute archive is not moved; taking locations apart never leaves the strings.", "quantifier": "every location, base location and environment", "why_tests_cant": "all placements of '!' and separators", "anchors": ["src/colorer/xml/libxml2/LibXmlInputSource.cpp:getFullPathsToZip"]}
{"id": "C55", "title": "Compiling an expression always ends, inside the tables", "statement": "Whatever text is given, compiling it as a regular expression ends with an expression or an error; every group number, name number and back reference of a compiled expression is inside the fixed tables of 16 groups and 16 names and refers to a group the expression (or the start expression it refers to) has.", "quantifier": "every text, every set of character properties, every start expression", "why_tests_cant": "all texts, including unfinished brackets, classes and escapes", "anchors": ["src/colorer/cregexp/cregexp.cpp:setRELow", "src/colorer/cregexp/cregexp.cpp:setStructs", "src/colorer/strings/icu/UStr.cpp:createCharClass", "src/colorer/strings/icu/UnicodeTools.cpp"]}
{"id": "C56", "title": "An expression matches what is written", "statement": "Every correctly written expression is accepted, has the groups and names written in it, and matching it finds exactly the texts the notation stands for: characters, escapes, classes, groups, alternatives, repetitions, look-ahead and look-behind, spaces with flag x.", "quantifier": "every expression of the notation, every text, every position", "why_tests_cant": "unbounded nesting of the notation; interplay of operators, empty alternatives and joined characters", "anchors": ["src/colorer/cregexp/cregexp.cpp:setRELow", "src/colorer/cregexp/cregexp.cpp:setStructs", "src/colorer/cregexp/cregexp.cpp:parse"]}
{"id": "C57", "title": "A character class is the set it describes", "statement": "A class [...] stands for the characters, ranges, categories, nested, subtracted and intersected classes written in it, complemented if it begins with ^, and with flag i for either case of each.", "quantifier": "every class of the notation, every character", "why_tests_cant": "unbounded nesting, all characters", "anchors": ["src/colorer/strings/icu/UStr.cpp:createCharClass"]}
{"id": "C58", "title": "The colours on the screen are those of the text parsed from scratch", "statement": "After any history of edits, scrolling, queries, idle jobs and changes of the file type or of the colour table, the regions the editor returns for a visible line show, at every column, the colours obtained by parsing the current text from its first line with a new parser and painting the reported regions in order; no operation crashes or runs forever if a parse of the text from scratch does not.", "quantifier": "every history of editor operations, every grammar, every text, every colour table", "why_tests_cant": "the result depends on the interplay of the incremental parser, its cache, the ring store and the lazily validated window over unbounded histories", "anchors": ["src/colorer/editor/BaseEditor.cpp:validate,getLineRegions,setFileType,setRegionMapper", "src/colorer/parsers/TextParserImpl.cpp:parse", "src/colorer/handlers/LineRegionsCompactSupport.cpp:addLineRegion", "src/colorer/handlers/LineRegionsSupport.cpp:enterScheme,leaveScheme,clearLine"]}
{"id": "C60", "title": "Parsing always ends", "statement": "Every call of parse returns: for any text, any range of existing lines, any cache mode, after any earlier calls on other versions of the text, the parser does not loop or recurse without end, as long as no scheme inherits itself (directly, in a circle or through substitutions).", "quantifier": "every grammar without circular inheritance, every sequence of calls of parse with any ranges, modes and texts, every answer of the expressions within the range searched", "why_tests_cant": "termination over all grammars, texts and call histories; blocks may nest, be empty, substitute each other and resume from cached entries of another text", "anchors": ["src/colorer/parsers/TextParserImpl.cpp:parse,colorize,searchMatch,searchIN,searchRE,searchBL,searchKW", "src/colorer/parsers/HrcLibraryImpl.cpp:updateSchemeLink"]}
{"id": "C59", "title": "Colouring does not depend on earlier uses of the shared expressions", "statement": "The compiled regular expressions belong to the grammar and are shared by all documents and parsers; each keeps state between calls. What a parse of a document reports, and the cache it leaves to later parses, nevertheless depends only on the grammar, the texts and the ranges parsed - never on what the expressions were used for before, or by others in between.", "quantifier": "every grammar of plain expressions (marks on every way or on none), every sequence of parses of any texts, ranges and modes, every history of calls of every expression before every single query", "why_tests_cant": "the histories of a shared object are unbounded, and an effect shows only for certain pairs of an earlier call and a later one", "anchors": ["src/colorer/cregexp/cregexp.cpp:CRegExp::parse,parseRE,lowParse,setBackTrace", "src/colorer/parsers/TextParserImpl.cpp:searchRE,searchBL,colorize", "src/colorer/parsers/helpers/HrcLibraryImpl.cpp:addSchemeRegexp,addSchemeBlock"]}
{"id": "C61", "title": "Loaded schemes are usable and final", "statement": "After any sequence of type loads and lookups, no two schemes of the library have the same name; every scheme belongs to a type that was loaded; every node of a scheme can be used by a parser: its expressions are accepted expressions (the end of a block compiled with the named groups of its start), its regions are registered regions, its keywords are not empty, its region tables have a place for every group, and each reference to another scheme is either the name of an existing scheme or given up for good. Later loads and lookups never change a loaded scheme.", "quantifier": "every set of sources, every contents of the scheme elements (also faulty ones), every order of loads and lookups, every nesting of loads caused by references", "why_tests_cant": "the sources and the interleavings of nested loads are unbounded; a dangling or changed reference shows only in a particular order of loads", "anchors": ["src/colorer/parsers/HrcLibraryImpl.cpp:addScheme,addSchemeBlock,addSchemeRegexp,addSchemeInherit,addSchemeKeywords,updateLinks", "src/colorer/parsers/SchemeImpl.h:SchemeImpl", "src/colorer/parsers/SchemeNode.h"]}
{"id": "C62", "title": "A scheme is what its element says", "statement": "A scheme element read from a source becomes a scheme with exactly the nodes its child elements stand for, in document order: every attribute goes to its field (expressions with entities replaced, regions 0-f of start and end, priorities, inner region, substitutions, keywords with their regions), faulty elements are left out, nothing else in the library changes. A scheme whose if/unless condition fails is empty.", "quantifier": "every scheme element with any children and attributes, every library state in which the types it may refer to have been started", "why_tests_cant": "elements, attributes and their combinations are unbounded", "anchors": ["src/colorer/parsers/HrcLibraryImpl.cpp:addScheme,parseSchemeBlock,addSchemeBlock,addSchemeRegexp,addSchemeInherit,addSchemeKeywords,addKeyword,loadRegions,loadBlockRegions,useEntities"]}
{"id": "C63", "title": "What is coloured depends on the sources and the text only", "statement": "For a library loaded from any sources in any order, what a sequence of parses of documents with one of its schemes reports is determined by the sources, the loads and the texts - not by what the shared expressions were used for; every such parse ends; an editor using the scheme paints what colouring the current text from scratch gives.", "quantifier": "every set of sources whose expressions pass their marks on every way or have none, every order of loads and lookups, every sequence of parses or legal editor operations", "why_tests_cant": "joins three unbounded domains: sources, documents, histories of shared objects", "anchors": ["src/colorer/parsers/HrcLibraryImpl.cpp:parseHRC,addScheme", "src/colorer/parsers/TextParserImpl.cpp:parse", "src/colorer/cregexp/cregexp.cpp:CRegExp::parse", "src/colorer/editor/BaseEditor.cpp:getLineRegions,validate"]}
{"id": "C64", "title": "Loading further types does not disturb documents being coloured", "statement": "While documents are coloured with a loaded scheme, further types may be loaded (by other documents, by lookups). Every parse reports what it would have reported without these loads, also when it resumes from what earlier parses left.", "quantifier": "every library, every interleaving of loads, lookups and parses of any texts, ranges and modes", "why_tests_cant": "the interleavings are unbounded; the disturbance would need a particular load between two particular parses", "anchors": ["src/colorer/parsers/HrcLibraryImpl.cpp:loadFileType,loadHrcType,updateLinks,addScheme", "src/colorer/parsers/TextParserImpl.cpp:parse", "src/colorer/parsers/helpers/TextParserHelpers.cpp:ParseCache,VTList"]}
{"id": "C65", "title": "The catalogue is what its document says", "statement": "After loading a catalogue, the HRC locations are the links of its hrc-sets in order and a colour scheme asked for by class and name is the first entry with them that has a class, a name and a place; an empty path stands for COLORER_CATALOG, and without that the call throws and changes nothing.", "quantifier": "every catalogue document, path and earlier state of the factory", "why_tests_cant": "documents are unbounded: any order, repetition and omission of elements", "anchors": ["src/colorer/parsers/CatalogParser.cpp:parse", "src/colorer/parsers/ParserFactoryImpl.cpp:loadCatalog,parseCatalog,getHrdNode"]}
{"id": "C66", "title": "Start-up registers exactly what the sources declare", "statement": "After loading a catalogue the file types are those known before and those the sources declare, in the order of the catalogue, each with the names, place, detection rules, weights and parameters its element gives, a later one replacing an older one of the same name; only those that are no packages are listed; missing or foreign files do no harm; nothing is loaded yet.", "quantifier": "every catalogue, every set of sources and file system, every earlier state", "why_tests_cant": "sources, their order and failures are unbounded; a fault in one source may show in a type of another", "anchors": ["src/colorer/parsers/HrcLibraryImpl.cpp:loadSource,parseHRC,addPrototype,unloadFileType", "src/colorer/parsers/ParserFactoryImpl.cpp:loadHrcPath,loadHrc"]}
{"id": "C67", "title": "A colour scheme is what its files say", "statement": "Creating the mapper of a colour scheme succeeds exactly if the scheme exists and all its files are colour scheme documents; then every region name has the value of the last assign for it over all the files in order, and no other name has one; the defaults are class rgb, name COLORER_HRD or default.", "quantifier": "every catalogue, scheme, set of files, region name", "why_tests_cant": "any number of files and assignments; the last one wins only if every path through the loop agrees", "anchors": ["src/colorer/parsers/ParserFactoryImpl.cpp:createStyledMapper,createTextMapper,fillMapper", "src/colorer/handlers/StyledHRDMapper.cpp:loadRegionMappings", "src/colorer/handlers/TextHRDMapper.cpp:loadRegionMappings"]}
{"id": "C68", "title": "A saved colour scheme can be loaded again", "statement": "What saveRegionMappings writes is a document that loadRegionMappings reads into the same definitions: names, colours, styles, marks.", "quantifier": "every mapper: all names, all 32-bit colours, all styles and marks", "why_tests_cant": "the values range over all numbers and strings", "anchors": ["src/colorer/handlers/StyledHRDMapper.cpp:saveRegionMappings", "src/colorer/handlers/TextHRDMapper.cpp:saveRegionMappings", "src/colorer/strings/icu/UStr.cpp:HexToUInt"]}
{"id": "C69", "title": "Comments and blanks in the sources do not matter", "statement": "Two documents that differ only in comments, processing instructions and blank text give the library the same elements, attributes and texts, at every depth.", "quantifier": "every document, every place of insertion", "why_tests_cant": "trees of any shape and depth", "anchors": ["src/colorer/xml/libxml2/LibXmlReader.cpp:populateNode,getElementText,getChildren"]}
{"id": "C70", "title": "Archives read from memory", "statement": "An archive in memory behaves as a file: whatever its reader asks for, reading gives exactly the bytes that follow, moving outside the archive is refused, and no access leaves the archive's bytes. A member taken out is the member, and a member that cannot be read whole is refused.", "quantifier": "every archive content (intact or damaged) and every sequence of read, seek and tell requests, each depending on all earlier answers", "why_tests_cant": "the requests of the unzip library depend on the bytes of the archive; a damaged or hostile archive can make it ask for any place", "anchors": ["src/colorer/zip/MemoryFile.cpp: mem_read_file_func, mem_seek_file_func, mem_tell_file_func, mem_open_file_func, unzip"]}
{"id": "C71", "title": "Colouring a file: every character once, in the right style", "statement": "The console tool's output for a file is the head of the page, the credits if wanted, then every line in order, after its right-aligned number if wanted and ended by a line feed, then the foot. Every character of the line appears exactly once and in order, enclosed in exactly the style (colour, text, or region name) its column has when the whole text is coloured from scratch.", "quantifier": "every grammar loaded from any sources in any order, every text, every combination of options, all answers the editor can give", "why_tests_cant": "joins loader, matcher, parser, editor, line store and writers; texts and grammars are unbounded", "anchors": ["tools/colorer/ConsoleTools.cpp:genOutput", "src/colorer/viewer/ParsedLineWriter.cpp", "src/colorer/editor/BaseEditor.cpp"]}
{"id": "C72", "title": "Which type the console tool uses for a file", "statement": "A type asked for by its exact name is used; a type asked for by a part of its description or name is the first listed type that begins with that text; otherwise the type is detected from the file's own name and its first lines (at most four, stopping after more than 500 characters).", "quantifier": "every list of types, every request, every path, every text", "why_tests_cant": "all strings and lists of types", "anchors": ["tools/colorer/ConsoleTools.cpp:selectType"]}
{"id": "C73", "title": "The HTML of a file reads back as the file", "statement": "With escaping, reading the page as HTML (leaving out tags, resolving entities) gives the lines of the file (after their numbers, if wanted): no character of a source can be taken for markup, and two different texts never give the same page.", "quantifier": "every text over all characters, every colouring", "why_tests_cant": "all texts and all colourings", "anchors": ["tools/colorer/ConsoleTools.h:HtmlEscapesWriter", "tools/colorer/ConsoleTools.cpp:genOutput", "src/colorer/viewer/ParsedLineWriter.cpp"]}
{"id": "C74", "title": "The written file is UTF-8 of the text", "statement": "The bytes written are the standard UTF-8 encoding of the characters of the output, after a byte order mark if wanted.", "quantifier": "every sequence of Unicode characters", "why_tests_cant": "all characters and sequences", "anchors": ["src/colorer/io/StreamWriter.cpp:write,writeBOM", "src/colorer/io/Writer.cpp:write", "src/colorer/strings/icu/Encodings.cpp:toUTF8Bytes"]}
{"id": "C75", "title": "Links in the output", "statement": "With link documents loaded, a word gets the address of the first declaration for this word in the scheme it stands in, or else of the first declaration for the word in all schemes; no other word gets a link.", "quantifier": "every sequence of link documents, every word and scheme", "why_tests_cant": "documents and words are unbounded", "anchors": ["tools/colorer/ConsoleTools.cpp:setLinkSource", "src/colorer/viewer/ParsedLineWriter.cpp:writeHref"]}
{"id": "C76", "title": "The command line of the console tool means what the usage text says", "statement": "For every command line made of the commands, parameters, switches and file names of the usage text, in any order and with values behind the option or in the next argument, the tool runs the last command with the last file and the last value of every parameter, every switch is obeyed, no warning is printed, and no argument is read beyond its end. A parameter whose value is missing is reported.", "quantifier": "every list of arguments; every list of words of the usage text", "why_tests_cant": "the option letters are prefixes of each other and the order of the tests decides; the combinations are unbounded", "anchors": ["tools/colorer/ConsoleToolsRunner.cpp:readArgs,initConsoleTools", "tools/colorer/ConsoleTools.cpp:loadType"]}
{"id": "C77", "title": "Matches do not disturb each other", "statement": "Any number of expressions can be matched in one process: whatever was matched before, by whichever expressions, and also when a parser factory was destroyed in between or while matches run in other threads, every match gives what the expression gives alone, and no memory is read or written outside what was allocated.", "quantifier": "every history of matches of any expressions on any texts; every interleaving of two matches", "why_tests_cant": "histories and schedules are unbounded; the memory grows only with deep backtracking", "anchors": ["src/colorer/cregexp/cregexp.cpp:check_stack,insert_stack,clearRegExpStack", "src/colorer/cregexp/cregexp.h:RegExpStack,count_elem", "src/colorer/parsers/ParserFactoryImpl.cpp:~Impl"]}
{"id": "C78", "title": "A parse that fails does not spoil the parser", "statement": "When the line source has no line inside the range, the parse ends in an exception that names this line. The handler has then been told exactly what a parse of the lines before it tells (but for the end), and the parser is left as that shorter parse leaves it: later parses give what they would give if only the lines before had been asked for.", "quantifier": "every grammar, text, missing line, range, mode and state of the parser", "why_tests_cant": "the exception can come at any depth of the recursion, inside any nesting of blocks, and its effect shows only in later parses", "anchors": ["src/colorer/parsers/TextParserImpl.cpp:colorize,searchBL,parse"]}
{"id": "C79", "title": "With the built-in strings, too, a character class is the set it describes", "statement": "In a build without ICU, a class [...] is read up to its ], stands for the characters, ranges, categories, escapes, nested, subtracted and intersected classes written in it, complemented if it begins with ^ and, with flag i, in either case; so both builds of the library accept the same characters. Reading ends for every text and stays inside it.", "quantifier": "every class of the notation at every place of an expression, every text, every 16-bit character, both settings of flag i, any category tables", "why_tests_cant": "unbounded nesting, 65536 characters, all texts", "anchors": ["src/colorer/strings/legacy/CharacterClass.cpp:createCharClass,addCategory,clearCategory", "src/colorer/strings/legacy/UnicodeTools.cpp", "src/colorer/strings/legacy/BitArray.cpp:addBitArray,clearBitArray"]}
{"id": "C80", "title": "The groups of a match hold what they matched", "statement": "After a match, a numbered or named group that the match passed holds exactly the piece of text it took there, and what is written in the group matches that piece, whatever was tried and given up before in the same call or in earlier calls with the same expression and the same match record. (The code does not do so for groups inside repetitions, nor does it clear groups of a way that was given up.)", "quantifier": "every expression of the notation, every text, position and bounds, fixed and moving search, every previous content of the match record and of the expression object, every group", "why_tests_cant": "the number of ways a backtracking match tries and gives up is unbounded, and each may write the group", "anchors": ["src/colorer/cregexp/cregexp.cpp:lowParse (880-893, 1193-1294),parseRE,parse,setStructs", "src/colorer/cregexp/cregexp.h:SMatches"]}
{"id": "C81", "title": "Marks set the beginning and the end of the match", "statement": "If the way an expression matches passes \\m, the match reported begins where it was passed (but not after its end); if it passes \\M, the match reported ends there; without marks it begins and ends where the match does. Whatever was tried and given up before in the same call, and whatever the object was used for before. (The code does not do so for marks of ways that were given up, nor inside repetitions.)", "quantifier": "every expression of the notation with marks, every text, position and bounds, fixed and moving search, every earlier state of the expression object and the match record", "why_tests_cant": "the number of ways a backtracking match tries and gives up is unbounded, and each may pass a mark", "anchors": ["src/colorer/cregexp/cregexp.cpp:checkMetaSymbol (781-788),lowParse (880-893),parseRE,parse", "src/colorer/cregexp/cregexp.h:SMatches"]}
{"id": "C82", "title": "The built-in character functions agree with each other", "statement": "Built without ICU, every character function answers for every 16 bit character without reading outside its tables; all tests of a character (letter, digit, space, case, visible) follow from its one category; a class {Xx} accepts exactly the characters of that category; an escape such as \\w accepts the same characters inside a class and outside; the case functions are idempotent and consistent with each other, and comparing without case is an equivalence that does not see the case. (The code does not do the last for Roman numerals, circled letters and some characters with the same upper case.)", "quantifier": "every 16 bit character, every pair of texts, every class of one category or escape, every expression and text for the search", "why_tests_cant": "the functions read compressed tables with shared rows; a wrong entry shows for one of 65536 characters only, and two independent encodings (one word per character, one bit set per category) must agree everywhere", "anchors": ["src/colorer/strings/legacy/Character.cpp", "src/colorer/strings/legacy/x_tables.h", "src/colorer/strings/legacy/x_charcategory2.h", "src/colorer/strings/legacy/CharacterClass.cpp:addCategory,clearCategory", "src/colorer/strings/legacy/UnicodeString.cpp:caseCompare,equalsIgnoreCase"]}
{"id": "C83", "title": "External entities are read from beside the file that declares them", "statement": "When an XML source (catalog, HRC, HRD) is read, every external entity is read from the place its declaration names: a relative name beside the file or archive member that contains the declaration, an absolute one where it says, one of the form env:$VAR/... where the environment says. This holds at any depth of declarations, and for every source whatever was read, or is still held, before. (In archives the code does so only for entities in the directory of the source.)", "quantifier": "every source, every sequence of entity declarations in the source and in entities, every history of earlier readers, every environment and content of the disk", "why_tests_cant": "the loader is a callback with static state shared by all readers; declarations nest to any depth and readers follow each other in any order", "anchors": ["src/colorer/xml/libxml2/LibXmlReader.cpp:LibXmlReader,xmlMyExternalEntityLoader,xmlZipEntityLoader", "src/colorer/xml/libxml2/LibXmlInputSource.cpp:getFullPathsToZip", "src/colorer/utils/Environment.cpp:getAbsolutePath"]}
{"id": "C84", "title": "The log says what its statements say", "statement": "A log statement writes its format with the arguments put in place of the percent signs, in order, whatever the arguments contain, and never throws: every statement of the library has as many percent signs as arguments. The log file keeps its old text and gets one line, with time and level, for every message whose level is not above the level in force, in order, whatever the history of level changes. The command line tool reports every exception on stderr and with the exit code -1, with or without a log. (The code does not do the last for an exception text with a percent sign or backslash, which is used as a format; and after a failed attempt to open the log file all messages are lost.)", "quantifier": "every log statement and every value of its arguments, every history of messages and level changes, every run of the tool", "why_tests_cant": "messages contain arbitrary text from grammars, file names and the command line; a wrong number of arguments shows only when that statement is reached", "anchors": ["src/colorer/common/Logger.cpp:print_impl_inner", "src/colorer/common/Logger.h:Log::log", "tools/colorer/SimpleLogger.h", "tools/colorer/ConsoleToolsRunner.cpp:workIt,main"]}
{"id": "C85", "title": "One byte code pages are read and written consistently", "statement": "Built without ICU, in each of the eight code pages every byte that stands for a character is written back for that character, a character not in the page is written as 0 and never as another character, every name of an encoding is understood in any case and the name of each encoding leads back to it; a file name taken from the command line and given to the system is unchanged, and a text is the same after conversion to a system string and back. (The code does not do the last two for the byte 0x98, which is in the UTF-8 of a common letter, and for texts that are not ASCII.)", "quantifier": "eight pages, every byte, every 16 bit character, every name, every text and C string", "why_tests_cant": "the reverse tables are compressed two-stage tables of 8704 entries for 8 x 65536 characters; every text and every name must pass", "anchors": ["src/colorer/strings/legacy/x_encodings.h", "src/colorer/strings/legacy/Encodings.cpp", "src/colorer/strings/legacy/UStr.cpp:to_stdstr,to_unistr", "src/colorer/strings/legacy/UnicodeString.cpp:getChars"]}
{"id": "C86", "title": "The encoding of a stream is recognised", "statement": "Built without ICU, a stream of bytes is read in the encoding given; with none given it is recognised: by a byte order mark or the beginning of an XML text in UTF-16 or UTF-32, by the encoding named in the XML declaration, as UTF-8 for other XML texts, and otherwise in the default code page; never reading outside the stream or a table. (The code does not: every XML declaration that names an encoding makes the text unreadable, short streams and wrong numbers are read outside.)", "quantifier": "every stream of bytes and every encoding number", "why_tests_cant": "the first hundred bytes are arbitrary", "anchors": ["src/colorer/strings/legacy/CString.cpp:CString(const byte*, int32_t, int)", "src/colorer/strings/legacy/UnicodeString.cpp:UnicodeString(const char*, int32_t, int)"]}
{"id": "C87", "title": "The expression tester tells the truth and ends", "statement": "In a session with `colorer -r` every expression typed is compiled and applied to the text typed after it: the tool says ok with the groups if the expression matches a text at the beginning of it (the tester does not search further on), and error otherwise; a line that is no expression is answered by a new prompt; an empty line or the end of the input ends the session. (The code does not end: an empty line stays \"\\n\" in the buffer and the end of the input is answered by prompts for ever.)", "quantifier": "every sequence of lines typed, every expression of the language of C56 and every text", "why_tests_cant": "sessions, expressions and texts are arbitrary", "anchors": ["tools/colorer/ConsoleTools.cpp:RETest", "src/colorer/cregexp/cregexp.cpp:CRegExp::setRE", "src/colorer/cregexp/cregexp.cpp:CRegExp::parse"]}
{"id": "C88", "title": "A file type lives until it is declared again", "statement": "A file type handed out by the library (by name or by index) stays valid, with its name and the place of its source, through any further loading of sources and types, until a source declares a type of the same name; loading always ends and never touches a deleted type; the list of types shows every type once, also when the types are loaded while they are listed. (The code does not guarantee this when the source of a type declares types itself: the type being loaded may be deleted under the loader, two such sources may load each other without end, the list shifts.)", "quantifier": "every sequence of sources read and types loaded, every set of sources, every order of references", "why_tests_cant": "the order of loads and the references between sources are arbitrary", "anchors": ["src/colorer/parsers/HrcLibraryImpl.cpp:loadFileType", "src/colorer/parsers/HrcLibraryImpl.cpp:unloadFileType", "src/colorer/parsers/HrcLibraryImpl.cpp:addPrototype", "src/colorer/parsers/HrcLibraryImpl.cpp:addType", "src/colorer/parsers/HrcLibraryImpl.cpp:qualifyForeignName", "tools/colorer/ConsoleTools.cpp:listTypes"]}
{"id": "C89", "title": "Files of any Unicode encoding are read and forwarded", "statement": "A file that holds a text in UTF-8, UTF-16 or UTF-32 with a byte order mark, or in UTF-8 without one, is read as exactly this text; forwarding it (colorer -f) writes the text in UTF-8, with a mark unless that is disabled, to the output only, also when the output is the input, and forwarding the result again changes nothing; nothing is written if the input cannot be read. (The code takes UTF-8 texts that begin with +/v8, +/v9, +/v+, +/v/ for UTF-7, and refuses an empty standard input.)", "quantifier": "every text of Unicode characters, every encoding form, with and without mark, every file system", "why_tests_cant": "texts are arbitrary, and their first characters may look like the mark of another encoding", "anchors": ["src/colorer/strings/icu/Encodings.cpp:Encodings::toUnicodeString", "src/colorer/viewer/TextLinesStore.cpp:TextLinesStore::loadFile", "tools/colorer/ConsoleTools.cpp:forward"]}
