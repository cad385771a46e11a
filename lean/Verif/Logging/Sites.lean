import Verif.Io.Model
/-!
# The log statements of the library and the tool

Generated from /repo by listing every `COLORER_LOG_ERROR/WARN/INFO/DEBUG/TRACE/DEEPTRACE(format, arguments...)` in src and tools: file, line, level, format,
number of arguments. The format of HrcLibraryImpl.cpp:859 is one of the four of 848-851, so it is listed four times. Not listed: ConsoleToolsRunner.cpp:309, whose
format is the text of an exception (see `Logging/Model.lean`), and the definitions of the macros (Logger.h 125-134).
-/
namespace Verif.Logging
open Verif.Strings (Str)

structure Site where
  file : String
  line : Nat
  level : Nat
  format : Str
  args : Nat

private def x (t : String) : Str := t.toList.map Char.toNat

/-- every log statement -/
def sites : List Site := [
  ⟨"src/colorer/editor/BaseEditor.cpp", 116, 4, x "[BaseEditor] setFileType: %", 1⟩,
  ⟨"src/colorer/editor/BaseEditor.cpp", 334, 4, x "[BaseEditor] modifyEvent: %", 1⟩,
  ⟨"src/colorer/editor/BaseEditor.cpp", 352, 4, x "[BaseEditor] visibleTextEvent: %-%", 2⟩,
  ⟨"src/colorer/editor/BaseEditor.cpp", 359, 4, x "[BaseEditor] lineCountEvent: %", 1⟩,
  ⟨"src/colorer/editor/BaseEditor.cpp", 392, 4, x "[BaseEditor] lrSize != wSize*2", 0⟩,
  ⟨"src/colorer/editor/BaseEditor.cpp", 423, 4, x "[BaseEditor] newFirstLine=%, parseFrom=%, parseTo=%", 3⟩,
  ⟨"src/colorer/editor/BaseEditor.cpp", 447, 4, x "[BaseEditor] validate:parse:%-%, %", 3⟩,
  ⟨"src/colorer/editor/BaseEditor.cpp", 454, 4, x "[BaseEditor] validate:parsed: invalidLine=%", 1⟩,
  ⟨"src/colorer/handlers/LineRegionsSupport.cpp", 86, 5, x "[LineRegionsSupport] checkLine: line % out of range", 1⟩,
  ⟨"src/colorer/handlers/StyledHRDMapper.cpp", 28, 2, x "Duplicate region name '%' in file '%'. Previous value replaced.", 2⟩,
  ⟨"src/colorer/handlers/TextHRDMapper.cpp", 28, 2, x "Duplicate region name '%' in file '%'. Previous value replaced.", 2⟩,
  ⟨"src/colorer/parsers/CatalogParser.cpp", 8, 4, x "start parse % as catalog.xml", 1⟩,
  ⟨"src/colorer/parsers/CatalogParser.cpp", 27, 4, x "end parse catalog.xml", 0⟩,
  ⟨"src/colorer/parsers/CatalogParser.cpp", 54, 4, x "add hrc location: '%'", 1⟩,
  ⟨"src/colorer/parsers/CatalogParser.cpp", 57, 2, x "found hrc with empty location. skip it location.", 0⟩,
  ⟨"src/colorer/parsers/CatalogParser.cpp", 81, 2, x "found HRD with empty class/name. skip this record.", 0⟩,
  ⟨"src/colorer/parsers/CatalogParser.cpp", 96, 4, x "add hrd location '%' for %:%", 3⟩,
  ⟨"src/colorer/parsers/CatalogParser.cpp", 100, 2, x "found hrd with empty location. skip it location.", 0⟩,
  ⟨"src/colorer/parsers/CatalogParser.cpp", 108, 2, x "skip HRD %:% - not found valid location", 2⟩,
  ⟨"src/colorer/parsers/FileTypeImpl.cpp", 90, 1, x "Error parse param '%' with value '%' to integer number", 2⟩,
  ⟨"src/colorer/parsers/HrcLibraryImpl.cpp", 90, 1, x "Can't open source stream: %", 1⟩,
  ⟨"src/colorer/parsers/HrcLibraryImpl.cpp", 93, 1, x "% [%]", 2⟩,
  ⟨"src/colorer/parsers/HrcLibraryImpl.cpp", 96, 1, x "% [%]", 2⟩,
  ⟨"src/colorer/parsers/HrcLibraryImpl.cpp", 99, 1, x "Unknown exception while loading %", 1⟩,
  ⟨"src/colorer/parsers/HrcLibraryImpl.cpp", 179, 4, x "begin parse '%'", 1⟩,
  ⟨"src/colorer/parsers/HrcLibraryImpl.cpp", 207, 4, x "end parse '%'", 1⟩,
  ⟨"src/colorer/parsers/HrcLibraryImpl.cpp", 223, 2, x "Unused element '%'. Current file %.", 2⟩,
  ⟨"src/colorer/parsers/HrcLibraryImpl.cpp", 233, 1, x "Found unnamed prototype/package. Skipped.", 0⟩,
  ⟨"src/colorer/parsers/HrcLibraryImpl.cpp", 240, 2, x "Duplicate prototype '%'. First version unloaded, current is loading.", 1⟩,
  ⟨"src/colorer/parsers/HrcLibraryImpl.cpp", 279, 2, x "Unused element '%' in prototype '%'. Current file %.", 3⟩,
  ⟨"src/colorer/parsers/HrcLibraryImpl.cpp", 289, 1, x "Bad 'location' link attribute in prototype '%'", 1⟩,
  ⟨"src/colorer/parsers/HrcLibraryImpl.cpp", 298, 2, x "Bad '%' element in prototype '%'", 2⟩,
  ⟨"src/colorer/parsers/HrcLibraryImpl.cpp", 305, 2, x "Fault compiling chooser RE '%' in prototype '%'", 2⟩,
  ⟨"src/colorer/parsers/HrcLibraryImpl.cpp", 317, 2, x "Weight must be greater than 0. Current value %. Default value will be used. Current file %.", 2⟩,
  ⟨"src/colorer/parsers/HrcLibraryImpl.cpp", 326, 2, x "Weight '%' is not valid for the prototype '%'. Message: %. Default value will be used. Current file %.", 4⟩,
  ⟨"src/colorer/parsers/HrcLibraryImpl.cpp", 342, 2, x "Bad parameter in prototype '%'", 1⟩,
  ⟨"src/colorer/parsers/HrcLibraryImpl.cpp", 352, 2, x "Unused element '%' in prototype '%'. Current file %.", 3⟩,
  ⟨"src/colorer/parsers/HrcLibraryImpl.cpp", 363, 1, x "Unnamed type found", 0⟩,
  ⟨"src/colorer/parsers/HrcLibraryImpl.cpp", 369, 1, x "Type '%s' without prototype", 1⟩,
  ⟨"src/colorer/parsers/HrcLibraryImpl.cpp", 374, 2, x "Type '%' is loading already. Current file %", 2⟩,
  ⟨"src/colorer/parsers/HrcLibraryImpl.cpp", 391, 2, x "Type '%' has no default scheme", 1⟩,
  ⟨"src/colorer/parsers/HrcLibraryImpl.cpp", 423, 1, x "No 'name' attribute in <region> element", 0⟩,
  ⟨"src/colorer/parsers/HrcLibraryImpl.cpp", 431, 2, x "Duplicate region '%' definition in type '%'", 2⟩,
  ⟨"src/colorer/parsers/HrcLibraryImpl.cpp", 449, 1, x "Bad entity attributes", 0⟩,
  ⟨"src/colorer/parsers/HrcLibraryImpl.cpp", 465, 1, x "Import with bad '%' attribute in type '%'", 2⟩,
  ⟨"src/colorer/parsers/HrcLibraryImpl.cpp", 477, 1, x "bad scheme name in type '%'", 1⟩,
  ⟨"src/colorer/parsers/HrcLibraryImpl.cpp", 482, 1, x "duplicate scheme name '%'", 1⟩,
  ⟨"src/colorer/parsers/HrcLibraryImpl.cpp", 533, 1, x "there is empty scheme name in inherit block of scheme '%', skip this inherit block.", 1⟩,
  ⟨"src/colorer/parsers/HrcLibraryImpl.cpp", 550, 1, x "there is bad virtualize attributes of scheme '%', skip this virtual block.", 1⟩,
  ⟨"src/colorer/parsers/HrcLibraryImpl.cpp", 569, 1, x "there is no 'match' attribute in regexp of scheme '%', skip this regexp block.", 1⟩,
  ⟨"src/colorer/parsers/HrcLibraryImpl.cpp", 577, 1, x "fault compiling regexp '%' of scheme '%', skip this regexp block.", 2⟩,
  ⟨"src/colorer/parsers/HrcLibraryImpl.cpp", 629, 1, x "there is no 'start' attribute in block of scheme '%', skip this block.", 1⟩,
  ⟨"src/colorer/parsers/HrcLibraryImpl.cpp", 633, 1, x "there is no 'end' attribute in block of scheme '%', skip this block.", 1⟩,
  ⟨"src/colorer/parsers/HrcLibraryImpl.cpp", 638, 1, x "there is no 'scheme' attribute in block of scheme '%', skip this block.", 1⟩,
  ⟨"src/colorer/parsers/HrcLibraryImpl.cpp", 646, 1, x "fault compiling start regexp '%' in block of scheme '%', skip this block.", 2⟩,
  ⟨"src/colorer/parsers/HrcLibraryImpl.cpp", 657, 1, x "fault compiling end regexp '%' in block of scheme '%', skip this block.", 2⟩,
  ⟨"src/colorer/parsers/HrcLibraryImpl.cpp", 685, 1, x "there is no 'region' attribute in keywords block of scheme '%', skip this keywords block.", 1⟩,
  ⟨"src/colorer/parsers/HrcLibraryImpl.cpp", 698, 1, x "fault compiling worddiv regexp '%' in keywords block of scheme '%'. skip this keywords block.", 2⟩,
  ⟨"src/colorer/parsers/HrcLibraryImpl.cpp", 740, 2, x "the 'name' attribute in the '%' element of scheme '%' is empty or missing, skip it.", 2⟩,
  ⟨"src/colorer/parsers/HrcLibraryImpl.cpp", 859, 1, x "cannot resolve scheme name '%' of block in scheme '%'", 2⟩,
  ⟨"src/colorer/parsers/HrcLibraryImpl.cpp", 859, 1, x "cannot resolve scheme name '%' of inherit in scheme '%'", 2⟩,
  ⟨"src/colorer/parsers/HrcLibraryImpl.cpp", 859, 1, x "cannot resolve scheme name '%' of virtual in scheme '%'", 2⟩,
  ⟨"src/colorer/parsers/HrcLibraryImpl.cpp", 859, 1, x "cannot resolve subst-scheme name '%' of virtual in scheme '%'", 2⟩,
  ⟨"src/colorer/parsers/HrcLibraryImpl.cpp", 907, 1, x "type name qualifer in '%' doesn't match current type '%'", 2⟩,
  ⟨"src/colorer/parsers/HrcLibraryImpl.cpp", 924, 1, x "region '%', referenced in type '%', is not defined", 2⟩,
  ⟨"src/colorer/parsers/HrcLibraryImpl.cpp", 930, 1, x "entity '%', referenced in type '%', is not defined", 2⟩,
  ⟨"src/colorer/parsers/HrcLibraryImpl.cpp", 936, 1, x "scheme '%', referenced in type '%', is not defined", 2⟩,
  ⟨"src/colorer/parsers/HrcLibraryImpl.cpp", 960, 1, x "type name qualifer in '%' doesn't match any type", 1⟩,
  ⟨"src/colorer/parsers/HrcLibraryImpl.cpp", 991, 1, x "unqualified name '%' doesn't belong to any imported type [%]", 2⟩,
  ⟨"src/colorer/parsers/ParserFactoryImpl.cpp", 21, 4, x "loadCatalog for empty path", 0⟩,
  ⟨"src/colorer/parsers/ParserFactoryImpl.cpp", 30, 4, x "loadCatalog for %", 1⟩,
  ⟨"src/colorer/parsers/ParserFactoryImpl.cpp", 35, 4, x "start load hrc files", 0⟩,
  ⟨"src/colorer/parsers/ParserFactoryImpl.cpp", 40, 4, x "end load hrc files", 0⟩,
  ⟨"src/colorer/parsers/ParserFactoryImpl.cpp", 46, 4, x "try load '%'", 1⟩,
  ⟨"src/colorer/parsers/ParserFactoryImpl.cpp", 57, 1, x "%", 1⟩,
  ⟨"src/colorer/parsers/ParserFactoryImpl.cpp", 67, 1, x "Can't load hrc: %", 1⟩,
  ⟨"src/colorer/parsers/ParserFactoryImpl.cpp", 68, 1, x "%", 1⟩,
  ⟨"src/colorer/parsers/ParserFactoryImpl.cpp", 186, 1, x "Can't load hrd: ", 0⟩,
  ⟨"src/colorer/parsers/ParserFactoryImpl.cpp", 187, 1, x "%", 1⟩,
  ⟨"src/colorer/parsers/TextParserHelpers.cpp", 8, 5, x "[TPCache] ~ParseCache():%,%-%", 3⟩,
  ⟨"src/colorer/parsers/TextParserHelpers.cpp", 35, 5, x "[TPCache] searchLine() tmp:%,%-%", 3⟩,
  ⟨"src/colorer/parsers/TextParserImpl.cpp", 5, 5, x "[TextParserImpl] constructor", 0⟩,
  ⟨"src/colorer/parsers/TextParserImpl.cpp", 45, 5, x "[TextParserImpl] parse from=%, num=%", 2⟩,
  ⟨"src/colorer/parsers/TextParserImpl.cpp", 64, 5, x "[TPCache] searchLine() parent:%,%-%", 3⟩,
  ⟨"src/colorer/parsers/TextParserImpl.cpp", 68, 5, x "[TextParserImpl] parse: cache filled", 0⟩,
  ⟨"src/colorer/parsers/TextParserImpl.cpp", 89, 5, x "[TextParserImpl] parse: goes into colorize()", 0⟩,
  ⟨"src/colorer/parsers/TextParserImpl.cpp", 248, 5, x "[TextParserImpl] KW matched. gx=%, region=%", 2⟩,
  ⟨"src/colorer/parsers/TextParserImpl.cpp", 310, 5, x "[TextParserImpl] RE matched. gx=%", 1⟩,
  ⟨"src/colorer/parsers/TextParserImpl.cpp", 343, 5, x "[TextParserImpl] Scheme matched. gx=%", 1⟩,
  ⟨"src/colorer/parsers/TextParserImpl.cpp", 456, 5, x "[TextParserImpl] searchMatch: entered scheme \"%\"", 1⟩,
  ⟨"src/colorer/parsers/TextParserImpl.cpp", 465, 5, x "[TextParserImpl] searchMatch: processing node:%/%, type:%", 3⟩,
  ⟨"src/colorer/parsers/TextParserImpl.cpp", 517, 5, x "[TextParserImpl] colorize: line no %", 1⟩,
  ⟨"src/colorer/strings/icu/Encodings.cpp", 15, 1, x "Encodings: Error \"%\" from ucnv_detectUnicodeSignature()\n", 1⟩,
  ⟨"src/colorer/strings/icu/UStr.cpp", 233, 1, x "Can`t convert % to int. %", 2⟩,
  ⟨"src/colorer/strings/legacy/UStr.cpp", 60, 1, x "Can`t convert % to int. %", 2⟩,
  ⟨"src/colorer/utils/Environment.cpp", 23, 4, x "get system environment '%'", 1⟩,
  ⟨"src/colorer/utils/Environment.cpp", 28, 4, x "'%' not set", 1⟩,
  ⟨"src/colorer/utils/Environment.cpp", 34, 4, x "'%' not set", 1⟩,
  ⟨"src/colorer/utils/Environment.cpp", 38, 4, x "'%' = '%'", 2⟩,
  ⟨"src/colorer/utils/Environment.cpp", 41, 4, x "get system environment '%'", 1⟩,
  ⟨"src/colorer/utils/Environment.cpp", 45, 4, x "'%' not set", 1⟩,
  ⟨"src/colorer/utils/Environment.cpp", 49, 4, x "'%' = '%'", 2⟩,
  ⟨"src/colorer/utils/Environment.cpp", 153, 4, x "expand system environment for '%'", 1⟩,
  ⟨"src/colorer/utils/Environment.cpp", 158, 4, x "result of expand '%'", 1⟩,
  ⟨"src/colorer/utils/Environment.cpp", 164, 4, x "expand system environment for '%'", 1⟩,
  ⟨"src/colorer/utils/Environment.cpp", 166, 4, x "result of expand ''", 0⟩,
  ⟨"src/colorer/utils/Environment.cpp", 176, 4, x "result of expand '%'", 1⟩,
  ⟨"src/colorer/utils/Environment.cpp", 182, 4, x "result of expand '%'", 1⟩,
  ⟨"src/colorer/xml/libxml2/LibXmlReader.cpp", 203, 1, x "+++ out of cheese error. redo from start +++\n", 0⟩,
  ⟨"src/colorer/xml/libxml2/LibXmlReader.cpp", 219, 1, x "%", 1⟩,
  ⟨"src/colorer/xml/libxml2/SharedXmlInputSource.cpp", 72, 1, x "failed to open %", 1⟩,
  ⟨"tools/colorer/ConsoleTools.cpp", 244, 2, x "Don`t found type by name '%'", 1⟩]

end Verif.Logging
