{"id": "C01", "title": "A generated file name never clashes with an existing one", "statement": "Whenever userNameToFileName(userName, existing, prefix, suffix) returns a name, the lower-cased form of that name is not an element of `existing`.", "quantifier": "every user name, every collection of existing names, every prefix and suffix, every lower-casing function", "why_tests_cant": "the clash fallbacks loop over counters; tests sample three clash situations, the claim is over every possible set of existing names including adversarial ones", "anchors": ["Lib/ufoLib/filenames.py:userNameToFileName", "Lib/ufoLib/filenames.py:handleClash1", "Lib/ufoLib/filenames.py:handleClash2"]}
{"id": "C02", "title": "A generated file name is at most 255 characters", "statement": "Whenever userNameToFileName returns a name and prefix and suffix leave room for one, the name has at most 255 characters.", "quantifier": "every user name of any length and content, every existing set, every prefix and suffix with len(prefix)+len(suffix)+15 <= 255", "why_tests_cant": "names are unbounded; only a pathological combination (many reserved components) breaks the clip, which sampling is unlikely to hit", "anchors": ["Lib/ufoLib/filenames.py:userNameToFileName", "Lib/ufoLib/filenames.py:handleClash1"]}
{"id": "C03", "title": "A generated file name contains no illegal character and no leading period", "statement": "The part of the returned name between prefix and suffix contains no character that is illegal in file names (quote * + / : < > ? [ \\ ] | NUL, control characters 1-31, DEL), and when no prefix is given the name does not start with a period.", "quantifier": "every user name, existing set, prefix and suffix", "why_tests_cant": "Unicode user names are an infinite domain and the clash fallbacks build names by a different route", "anchors": ["Lib/ufoLib/filenames.py:userNameToFileName", "Lib/ufoLib/filenames.py:illegalCharacters"]}
{"id": "C04", "title": "No dot-separated component of a generated file name is a reserved device name", "statement": "When prefix is empty or ends with a period and suffix is empty or starts with a period, no dot-separated component of the generated part of the returned name is (case-insensitively) one of CON PRN AUX CLOCK$ NUL A:-Z: COM1-4 LPT1-3, also after clipping and after clash handling.", "quantifier": "every user name, existing set, prefix and suffix of that shape", "why_tests_cant": "clipping and clash suffixing happen around the reserved-name check; their interaction is over unbounded names", "anchors": ["Lib/ufoLib/filenames.py:userNameToFileName", "Lib/ufoLib/filenames.py:reservedFileNames", "Lib/ufoLib/filenames.py:handleClash1", "Lib/ufoLib/filenames.py:handleClash2"]}
{"id": "C05", "title": "File name generation always succeeds for a realistic number of existing names", "statement": "For a non-empty user name and an existing collection with fewer than 999999999999998 entries, userNameToFileName returns a name (it never raises and the clash loop stops after at most len(existing)+1 attempts); the empty user name without a prefix raises IndexError.", "quantifier": "every non-empty user name, prefix, suffix, and every existing collection below the bound", "why_tests_cant": "termination of a search loop against an arbitrary set cannot be established by running it on samples", "anchors": ["Lib/ufoLib/filenames.py:handleClash1", "Lib/ufoLib/filenames.py:handleClash2"]}
{"id": "C06", "title": "Names assigned one after another are pairwise distinct ignoring case", "statement": "If names are generated one after another, each time adding the lower-cased result to `existing`, all generated names are pairwise different even when compared case-insensitively.", "quantifier": "every sequence of user names of any length, every prefix and suffix", "why_tests_cant": "quantifies over histories of calls of unbounded length", "anchors": ["Lib/ufoLib/filenames.py:userNameToFileName", "Lib/ufoLib/__init__.py:UFOWriter._getGlyphSetFormatVersion3"]}
{"id": "C07", "title": "Kerning lookup uses the documented precedence", "statement": "lookupKerningValue returns the value of the first of (glyph,glyph), (glyph,group2), (group1,glyph), (group1,group2) present in the kerning, where group1/group2 are the public.kern1./public.kern2. groups of the pair members (or the members themselves when they already are such group names), and the fallback when none is present.", "quantifier": "every pair, kerning dictionary, groups dictionary and fallback value", "why_tests_cant": "the combinations of present and absent pairs over arbitrary dictionaries are unbounded", "anchors": ["Lib/ufoLib/kerning.py:lookupKerningValue"]}
{"id": "C08", "title": "Kerning lookup does not depend on group order or on precomputed maps", "statement": "For groups accepted by groupsValidator, lookupKerningValue gives the same answer for every iteration order of the groups dictionary, and passing precomputed glyph-to-group maps built from the same groups gives that answer as well.", "quantifier": "every valid groups dictionary, every permutation of it, every kerning and pair", "why_tests_cant": "order independence ranges over all permutations of all dictionaries", "anchors": ["Lib/ufoLib/kerning.py:lookupKerningValue", "Lib/ufoLib/validators.py:groupsValidator"]}
{"id": "C09", "title": "groupsValidator accepts exactly the well-formed groups", "statement": "groupsValidator accepts a value iff it is a dictionary whose keys are non-empty strings and values lists or tuples, no public.kern1./public.kern2. key is just the prefix, and within the kern1 groups (and likewise within the kern2 groups) all members are strings and no member occurs twice, in one group or in two.", "quantifier": "every Python value", "why_tests_cant": "the accepted set is infinite; tests give a handful of dictionaries", "anchors": ["Lib/ufoLib/validators.py:groupsValidator"]}
{"id": "C10", "title": "Kerning up-conversion keeps the original groups and adds faithful copies", "statement": "After converting UFO 1/2 kerning to UFO 3, every original group is still present with its members; every group in the rename maps is present under its new name with the same members as under the old name; and no other group appears.", "quantifier": "every groups and kerning dictionary, every iteration order of the intermediate sets", "why_tests_cant": "dictionaries are unbounded and Python set order is nondeterministic", "anchors": ["Lib/ufoLib/converters.py:convertUFO1OrUFO2KerningToUFO3Kerning"]}
{"id": "C11", "title": "Kerning up-conversion loses no kerning pair", "statement": "Every kerning pair of the UFO 1/2 data is present, with its value, in the converted kerning under the renamed first and second names; in particular two different groups are never renamed to the same name on one side.", "quantifier": "every groups and kerning dictionary, every iteration order", "why_tests_cant": "a collision needs two group names that agree after prefix removal; sampled tests do not contain one", "anchors": ["Lib/ufoLib/converters.py:convertUFO1OrUFO2KerningToUFO3Kerning", "Lib/ufoLib/converters.py:makeUniqueGroupName"]}
{"id": "C12", "title": "Kerning up-conversion does not depend on set iteration order", "statement": "The rename maps, the converted kerning and the converted groups are the same (as dictionaries) for every order in which the intermediate sets of referenced groups are iterated.", "quantifier": "every groups and kerning dictionary and every pair of iteration orders", "why_tests_cant": "string hashing is randomised per process, so the order changes between runs; a test sees one order", "anchors": ["Lib/ufoLib/converters.py:convertUFO1OrUFO2KerningToUFO3Kerning", "Lib/ufoLib/converters.py:findKnownKerningGroups"]}
{"id": "C13", "title": "Renamed kerning groups have the right prefix and a fresh name, and exactly the kerning groups are renamed", "statement": "Up-conversion renames on side 1 exactly the groups that start with @MMK_L_ or that are used as the first member of a kerning pair without already starting with public.kern1. (side 2: @MMK_R_, second member, public.kern2.); each new name starts with that side's prefix and is not a name of an existing group; the search for a fresh name terminates.", "quantifier": "every groups and kerning dictionary, every iteration order", "why_tests_cant": "termination and freshness range over arbitrary existing names", "anchors": ["Lib/ufoLib/converters.py:convertUFO1OrUFO2KerningToUFO3Kerning", "Lib/ufoLib/converters.py:findKnownKerningGroups", "Lib/ufoLib/converters.py:makeUniqueGroupName"]}
{"id": "C14", "title": "Writing back up-converted kerning with the rename maps restores the original UFO 1/2 data", "statement": "Reading groups and kerning from a UFO 1/2, passing the reader's rename maps to the writer's setKerningGroupConversionRenameMaps and writing both back produces the groups and kerning that were read.", "quantifier": "every UFO 1/2 groups and kerning dictionary", "why_tests_cant": "a round trip over unbounded dictionaries with name clashes", "anchors": ["Lib/ufoLib/converters.py:convertUFO1OrUFO2KerningToUFO3Kerning", "Lib/ufoLib/__init__.py:UFOWriter.setKerningGroupConversionRenameMaps", "Lib/ufoLib/__init__.py:UFOWriter.writeGroups", "Lib/ufoLib/__init__.py:UFOWriter.writeKerning", "Lib/ufoLib/__init__.py:UFOReader.readKerning"]}
{"id": "C15", "title": "A reader never mixes two versions of groups.plist and kerning.plist", "statement": "For a UFO 1/2 whose kerning converts without an exception (failures are C16's subject), if the files change on disk between calls, every readGroups/readKerning call of one UFOReader either returns the data obtained from the first snapshot it converted, or raises; it raises whenever the file contents differ from that snapshot.", "quantifier": "every interleaving of file modifications and reader calls", "why_tests_cant": "quantifies over histories and schedules of external modifications", "anchors": ["Lib/ufoLib/__init__.py:UFOReader._upConvertKerning", "Lib/ufoLib/__init__.py:UFOReader.readGroups", "Lib/ufoLib/__init__.py:UFOReader.readKerning"]}
{"id": "C16", "title": "A failed kerning conversion is not later reported as success", "statement": "If converting the kerning of a UFO 1/2 raises an exception, later calls on the same unchanged files and the same reader raise as well instead of returning data.", "quantifier": "every file content and every sequence of reader calls", "why_tests_cant": "needs histories with an exception in the middle", "anchors": ["Lib/ufoLib/__init__.py:UFOReader._upConvertKerning"]}
{"id": "C17", "title": "Reversing a closed contour twice is the identity and keeps the first point first", "statement": "Drawing a closed contour through ReverseContourPointPen keeps the first point first, visits the points in the opposite cyclic order (output N is input -N), keeps off-curve points off-curve, and doing it twice gives back exactly the original points, types, smooth flags, names and kwargs.", "quantifier": "every closed contour of any length, with any mixture of on- and off-curve points", "why_tests_cant": "contours are unbounded lists; types shift cyclically between points", "anchors": ["Lib/ufoLib/pointPen.py:ReverseContourPointPen"]}
{"id": "C18", "title": "Reversing an open contour gives an open contour", "statement": "For a contour that starts with a move point, ReverseContourPointPen emits a contour that starts with a move point and drops exactly the trailing off-curve points; reversing twice is the identity when there are no trailing off-curve points and no other move points.", "quantifier": "every open contour of any length", "why_tests_cant": "unbounded lists with arbitrary trailing off-curve runs", "anchors": ["Lib/ufoLib/pointPen.py:ReverseContourPointPen"]}
{"id": "C19", "title": "Segment conversion neither drops nor invents points", "statement": "For a contour of two or more points BasePointToSegmentPen delivers segments whose points, concatenated, are exactly the contour's points: in order up to the last on-curve point for an open contour (the format forbids off-curve points after it), as the rotation that ends with the first on-curve point for a closed one, followed by an implied None point when there is no on-curve point; every segment ends with its only on-curve point; a move segment appears only first, and only for an open contour. A contour of one point is delivered as a single move segment.", "quantifier": "every contour of any length", "why_tests_cant": "unbounded point lists, many shapes", "anchors": ["Lib/ufoLib/pointPen.py:BasePointToSegmentPen.endPath"]}
{"id": "C20", "title": "Point pen to segment pen and back preserves a contour", "statement": "Drawing a contour through PointToSegmentPen into SegmentToPointPen gives back the same points and segment types (rotated so that the first on-curve point is first).", "quantifier": "every contour of at least two points, both values of outputImpliedClosingLine", "why_tests_cant": "coinciding points break the implied closing line only for particular geometry", "anchors": ["Lib/ufoLib/pointPen.py:PointToSegmentPen", "Lib/ufoLib/pointPen.py:SegmentToPointPen"]}
{"id": "C21", "title": "Guessing smoothness changes nothing but smooth flags", "statement": "GuessSmoothPointPen passes on the same contours with the same points, segment types, names and kwargs in the same order; only on-curve points with an off-curve neighbour can become smooth.", "quantifier": "every sequence of contours and components, every smoothness decision", "why_tests_cant": "unbounded contours and a floating point decision", "anchors": ["Lib/ufoLib/pointPen.py:GuessSmoothPointPen"]}
{"id": "C22", "title": "Property lists survive conversion to a tree and back", "statement": "For every value made of dictionaries with string keys, lists, strings, booleans, integers in [-2^63, 2^64), floats, dates and bytes, plistlib.fromtree(plistlib.totree(v)) equals v.", "quantifier": "every such value, of any nesting depth and size", "why_tests_cant": "recursive data of unbounded depth", "anchors": ["Lib/ufoLib/plistlib.py:totree", "Lib/ufoLib/plistlib.py:fromtree", "Lib/ufoLib/plistlib.py:PlistTarget"]}
{"id": "C23", "title": "plist <data> survives base64 line wrapping at every indent level", "statement": "Decoding the base64 text produced by plistlib for a byte string gives back the byte string, for every line length and indentation used.", "quantifier": "every byte string, line length and indent level", "why_tests_cant": "length modulo 3, chunk boundaries and indent interact", "anchors": ["Lib/ufoLib/plistlib.py:_encode_base64", "Lib/ufoLib/plistlib.py:end_data"]}
{"id": "C24", "title": "plist dates survive the string format", "statement": "_date_from_string(_date_to_string(d)) equals d for every date with whole seconds and year 1-9999.", "quantifier": "every such date", "why_tests_cant": "the space of dates is too large to enumerate in tests and padding matters", "anchors": ["Lib/ufoLib/plistlib.py:_date_to_string", "Lib/ufoLib/plistlib.py:_date_from_string"]}
{"id": "C25", "title": "Values a property list cannot represent are refused, not altered", "statement": "totree raises for a dictionary with a non-string key, for None and for an integer outside [-2^63, 2^64), anywhere inside the value; it succeeds on every other supported value.", "quantifier": "every Python value built from supported and unsupported pieces, of any depth", "why_tests_cant": "the offending piece can be at any depth", "anchors": ["Lib/ufoLib/plistlib.py:_make_element", "Lib/ufoLib/plistlib.py:_dict_element", "Lib/ufoLib/plistlib.py:_integer_element"]}
{"id": "C26", "title": "Written property lists do not depend on dictionary order", "statement": "Two dictionaries that are equal (same items inserted in a different order, at any depth) produce the same tree, so rewriting equal data does not touch the file.", "quantifier": "every value and every reordering of its dictionaries at every depth", "why_tests_cant": "ranges over all permutations at all depths", "anchors": ["Lib/ufoLib/plistlib.py:_dict_element", "Lib/ufoLib/__init__.py:_writePlist"]}
{"id": "C27", "title": "Text survives XML escaping", "statement": "Escaping character data with the built-in serializer and then reading it with an XML 1.0 parser gives back the text.", "quantifier": "every string of characters the serializer accepts", "why_tests_cant": "Unicode strings are an infinite domain; line-end normalisation affects a single control character", "anchors": ["Lib/ufoLib/etree.py:_escape_cdata", "Lib/ufoLib/etree.py:_tounicode"]}
{"id": "C28", "title": "Attribute values survive XML escaping", "statement": "Escaping an attribute value with the built-in serializer and then reading it with an XML 1.0 parser gives back the value.", "quantifier": "every string of characters the serializer accepts", "why_tests_cant": "attribute-value normalisation affects only some whitespace characters", "anchors": ["Lib/ufoLib/etree.py:_escape_attrib"]}
{"id": "C29", "title": "A serialized element tree parses back to the same tree", "statement": "Serializing an element tree with the built-in serializer (with or without pretty printing) and parsing the result gives the same elements, attributes and leaf texts.", "quantifier": "every element tree of any depth and width", "why_tests_cant": "recursive structure with arbitrary text everywhere", "anchors": ["Lib/ufoLib/etree.py:_serialize_xml", "Lib/ufoLib/etree.py:_indent"]}
{"id": "C30", "title": "identifierValidator accepts exactly the legal identifiers", "statement": "identifierValidator(v) is True iff v is a string of 1 to 100 characters, each between U+0020 and U+007E.", "quantifier": "every Python value", "why_tests_cant": "infinite domain", "anchors": ["Lib/ufoLib/validators.py:identifierValidator"]}
{"id": "C31", "title": "Accepted guideline and anchor lists have unique legal identifiers and legal geometry", "statement": "guidelinesValidator(v, ids) / anchorsValidator(v, ids) accept only lists of dictionaries in which the identifiers are legal, pairwise different and not in ids; every accepted guideline has x or y, and an angle (between 0 and 360) exactly when it has both; every accepted anchor has x and y.", "quantifier": "every Python value and every initial identifier set", "why_tests_cant": "lists of unbounded length with aliasing identifiers", "anchors": ["Lib/ufoLib/validators.py:guidelinesValidator", "Lib/ufoLib/validators.py:guidelineValidator", "Lib/ufoLib/validators.py:anchorsValidator", "Lib/ufoLib/validators.py:anchorValidator"]}
{"id": "C32", "title": "Accepted colors are four numbers between 0 and 1", "statement": "colorValidator(s) is True only if s consists of four comma separated numbers, each at least 0 and at most 1.", "quantifier": "every string", "why_tests_cant": "the number grammar has corner cases (nan, infinities, signs, underscores)", "anchors": ["Lib/ufoLib/validators.py:colorValidator"]}
{"id": "C33", "title": "openTypeHeadCreated accepts only YYYY/MM/DD HH:MM:SS dates", "statement": "fontInfoOpenTypeHeadCreatedValidator accepts only strings of the form dddd/dd/dd dd:dd:dd with digits only, which name an existing calendar day and time, and accepts all of those with year >= 1.", "quantifier": "every string", "why_tests_cant": "19 character strings over Unicode cannot be enumerated", "anchors": ["Lib/ufoLib/validators.py:fontInfoOpenTypeHeadCreatedValidator"]}
{"id": "C34", "title": "layerContentsValidator accepts exactly the consistent layer tables", "statement": "layerContentsValidator accepts iff the value is a list of [name, directory] string pairs with non-empty pairwise different names and pairwise different existing directories that are 'glyphs' or start with 'glyphs.', 'glyphs' is among them, and public.default is not used for another directory.", "quantifier": "every Python value and every file system state", "why_tests_cant": "unbounded lists against arbitrary file systems", "anchors": ["Lib/ufoLib/validators.py:layerContentsValidator"]}
{"id": "C35", "title": "kerning, lib and font-info value validators accept exactly their documented value sets", "statement": "kerningValidator, fontLibValidator, glyphLibValidator and the scalar/list font info validators (weight class, width class, panose, family class, blues, stems, character set, style map name, gasp ranges) accept exactly the values described by their documented ranges.", "quantifier": "every Python value", "why_tests_cant": "infinite domains with bool/int/float subtleties", "anchors": ["Lib/ufoLib/validators.py:kerningValidator", "Lib/ufoLib/validators.py:fontLibValidator", "Lib/ufoLib/validators.py:glyphLibValidator", "Lib/ufoLib/validators.py:fontInfoOpenTypeOS2FamilyClassValidator", "Lib/ufoLib/validators.py:fontInfoOpenTypeGaspRangeRecordsValidator"]}
{"id": "C36", "title": "Validators return a verdict and never raise", "statement": "Every font info validator, called with any property list value, returns True or False and does not raise.", "quantifier": "every property list value, every validator in the UFO 3 font info table", "why_tests_cant": "the raising inputs are isolated points of an infinite domain", "anchors": ["Lib/ufoLib/validators.py:fontInfoWOFFMetadataLicenseValidator", "Lib/ufoLib/validators.py:fontInfoWOFFMetadataExtensionValidator", "Lib/ufoLib/validators.py:genericIntListValidator"]}
{"id": "C37", "title": "Validated UFO 2 info survives conversion to UFO 1 and back", "statement": "Every attribute that exists in UFO 1 and whose value passes the UFO 2 validator is converted to a UFO 1 value (never to None) and converts back to the same attribute and value.", "quantifier": "every attribute and every accepted value", "why_tests_cant": "value domains are infinite for most attributes", "anchors": ["Lib/ufoLib/__init__.py:convertFontInfoValueForAttributeFromVersion2ToVersion1", "Lib/ufoLib/__init__.py:convertFontInfoValueForAttributeFromVersion1ToVersion2"]}
{"id": "C38", "title": "Every valid UFO 2 font info can be read", "statement": "If every attribute of a UFO 2 fontinfo.plist passes the UFO 2 validator, then UFOReader.readInfo accepts it: after conversion every value passes the UFO 3 validator.", "quantifier": "every UFO 2 font info dictionary", "why_tests_cant": "only particular numeric values (integral floats, negative numbers) fail", "anchors": ["Lib/ufoLib/__init__.py:convertFontInfoValueForAttributeFromVersion2ToVersion3", "Lib/ufoLib/__init__.py:_convertFontInfoDataVersion2ToVersion3", "Lib/ufoLib/__init__.py:UFOReader.readInfo"]}
{"id": "C39", "title": "Converting UFO 2 info to UFO 3 is idempotent and changes only the listed attributes", "statement": "Converting a value twice gives the same result as converting it once, attribute names are unchanged, attributes outside the documented lists keep their value, a converted number differs from the original by rounding to the nearest integer and/or taking the absolute value.", "quantifier": "every attribute and every number", "why_tests_cant": "infinite numeric domain", "anchors": ["Lib/ufoLib/__init__.py:convertFontInfoValueForAttributeFromVersion2ToVersion3"]}
{"id": "C40", "title": "Font info written by UFOWriter is read back unchanged", "statement": "For format version 3, after writeInfo succeeds with validation, readInfo sets exactly the known non-None attributes of the written object, with equal values; for version 2 exactly those that exist in version 2.", "quantifier": "every info object", "why_tests_cant": "ranges over every subset of about 120 attributes with arbitrary values", "anchors": ["Lib/ufoLib/__init__.py:UFOWriter.writeInfo", "Lib/ufoLib/__init__.py:UFOReader.readInfo"]}
{"id": "C41", "title": "Identifiers in a written glyph are legal and unique", "statement": "When a glyph is written in format 2 with validation, the identifiers of all its guidelines, anchors, contours, points and components are legal and pairwise different, whatever sequence of pen calls the drawing function makes; otherwise GlifLibError is raised.", "quantifier": "every glyph object and every sequence of pen calls", "why_tests_cant": "identifier clashes can be between any two of unboundedly many objects of five kinds", "anchors": ["Lib/ufoLib/glifLib.py:GLIFPointPen", "Lib/ufoLib/glifLib.py:_writeGuidelines", "Lib/ufoLib/glifLib.py:_writeAnchors", "Lib/ufoLib/glifLib.py:_writeGlyphToBytes"]}
{"id": "C42", "title": "Identifiers in an accepted glyph are unique", "statement": "When a format 2 GLIF is read with validation and a pen, no identifier is delivered twice among contours, points, components, guidelines and anchors, and all are legal.", "quantifier": "every element tree", "why_tests_cant": "unbounded documents", "anchors": ["Lib/ufoLib/glifLib.py:_readGlyphFromTreeFormat2", "Lib/ufoLib/glifLib.py:buildOutlineFormat2"]}
{"id": "C43", "title": "A contour accepted by the reader is well formed", "statement": "With validation, every contour delivered to a pen has move only as first point, no off-curve point directly before a line point, at most two off-curve points before a curve point (cyclically for closed contours), no trailing off-curve points in an open contour, and smooth only on on-curve points.", "quantifier": "every contour element", "why_tests_cant": "cyclic counting over unbounded point lists", "anchors": ["Lib/ufoLib/glifLib.py:_validateAndMassagePointStructures", "Lib/ufoLib/glifLib.py:_buildOutlineContourFormat1", "Lib/ufoLib/glifLib.py:_buildOutlineContourFormat2"]}
{"id": "C44", "title": "A glyph that can be written can be read back with the same outline", "statement": "If writing a glyph in format 2 with validation succeeds, reading it back with validation succeeds and makes the same pen calls (same points, types, smooth flags, names, identifiers, component bases and transformations).", "quantifier": "every well-nested sequence of pen calls", "why_tests_cant": "writer and reader validate differently; the disagreement needs specific contours", "anchors": ["Lib/ufoLib/glifLib.py:GLIFPointPen", "Lib/ufoLib/glifLib.py:buildOutlineFormat2"]}
{"id": "C45", "title": "Unicode values survive writing and reading", "statement": "The list of unicode values read back is the list written, with duplicates removed and order kept.", "quantifier": "every list of integers", "why_tests_cant": "unbounded lists and integers, hexadecimal formatting of all sizes", "anchors": ["Lib/ufoLib/glifLib.py:_writeUnicodes", "Lib/ufoLib/glifLib.py:_readGlyphFromTreeFormat2"]}
{"id": "C46", "title": "Advance width and height survive writing and reading", "statement": "Width and height read back (0 when not set) equal the written width and height (0 when absent).", "quantifier": "every combination of absent, zero and non-zero int or float values", "why_tests_cant": "infinite numeric domain and four presence combinations", "anchors": ["Lib/ufoLib/glifLib.py:_writeAdvance", "Lib/ufoLib/glifLib.py:_readAdvance"]}
{"id": "C47", "title": "Notes are normalised once", "statement": "The note read back has the same non-blank lines, each stripped; writing and reading a note that was read gives the same note.", "quantifier": "every string", "why_tests_cant": "Unicode strings are an infinite domain", "anchors": ["Lib/ufoLib/glifLib.py:_writeNote", "Lib/ufoLib/glifLib.py:_readNote"]}
{"id": "C48", "title": "Image, guideline and anchor data survive writing and reading", "statement": "For valid image, guidelines and anchors, the data read back equals the data written (for images with the default transformation values filled in).", "quantifier": "every valid image dictionary, guideline list and anchor list", "why_tests_cant": "optional keys, default elision and numeric formatting interact", "anchors": ["Lib/ufoLib/glifLib.py:_writeImage", "Lib/ufoLib/glifLib.py:_readImage", "Lib/ufoLib/glifLib.py:_writeGuidelines", "Lib/ufoLib/glifLib.py:_writeAnchors", "Lib/ufoLib/glifLib.py:_readGlyphFromTreeFormat2"]}
{"id": "C49", "title": "Format 1 glyphs written by the library are accepted by its format 1 reader, with their anchors", "statement": "If writing a glyph in format 1 with validation succeeds, reading it in format 1 with validation succeeds; named anchors are read back as anchors.", "quantifier": "every sequence of pen calls and every anchor list", "why_tests_cant": "format 1 has no identifiers, the pen does not know it writes format 1", "anchors": ["Lib/ufoLib/glifLib.py:_writeGlyphToBytes", "Lib/ufoLib/glifLib.py:_writeAnchorsFormat1", "Lib/ufoLib/glifLib.py:buildOutlineFormat1"]}
{"id": "C50", "title": "The fast scanners agree with the full reader", "statement": "For a glyph the full reader accepts, getUnicodes, getComponentReferences and getImageReferences return the unicode values, component base names and image file name that readGlyph delivers.", "quantifier": "every GLIF document accepted by the reader", "why_tests_cant": "two independent parsers over unbounded documents", "anchors": ["Lib/ufoLib/glifLib.py:_fetchUnicodes", "Lib/ufoLib/glifLib.py:_fetchComponentBases", "Lib/ufoLib/glifLib.py:_fetchImageFileName"]}
{"id": "C51", "title": "A glyph set behaves like a map from glyph names to the last written data", "statement": "After any sequence of writeGlyph and deleteGlyph calls, getGLIF returns the data last written for that glyph name, other glyphs are unaffected, and deleted or never written glyphs raise KeyError.", "quantifier": "every sequence of operations of any length, every naming function, every glyph data", "why_tests_cant": "histories are unbounded and two glyphs can be assigned one file", "anchors": ["Lib/ufoLib/glifLib.py:GlyphSet.writeGlyph", "Lib/ufoLib/glifLib.py:GlyphSet.deleteGlyph", "Lib/ufoLib/glifLib.py:GlyphSet.getGLIF"]}
{"id": "C52", "title": "Glyph file names assigned by a glyph set are pairwise distinct ignoring case", "statement": "In every glyph set reached by writeGlyph/deleteGlyph with the default naming function, two different glyphs never have file names that are equal ignoring case.", "quantifier": "every history of operations and every glyph name", "why_tests_cant": "only particular name pairs (upper-case letter next to an illegal character or underscore) clash", "anchors": ["Lib/ufoLib/glifLib.py:GlyphSet.writeGlyph", "Lib/ufoLib/glifLib.py:glyphNameToFileName"]}
{"id": "C53", "title": "A failed writeGlyph leaves the glyph set unchanged", "statement": "If writeGlyph raises, the contents of the glyph set, the files on disk and a subsequently written contents.plist are as if the call had not been made.", "quantifier": "every glyph set state and every failing call", "why_tests_cant": "exception safety at an arbitrary point of an arbitrary history", "anchors": ["Lib/ufoLib/glifLib.py:GlyphSet.writeGlyph"]}
{"id": "C54", "title": "The reverse contents cache is coherent", "statement": "getReverseContents always equals the mapping recomputed from the current contents, whenever it was first called, as long as file names are distinct ignoring case.", "quantifier": "every history interleaving writes, deletes, rebuilds and cache reads", "why_tests_cant": "cache coherence is a property of all interleavings", "anchors": ["Lib/ufoLib/glifLib.py:GlyphSet.getReverseContents", "Lib/ufoLib/glifLib.py:GlyphSet.writeGlyph", "Lib/ufoLib/glifLib.py:GlyphSet.deleteGlyph"]}
{"id": "C55", "title": "Reopening a glyph set after writeContents gives the same contents; a crash before it gives a readable glyph set", "statement": "After writeContents, opening the directory again gives the same glyph names and files. If the process stops anywhere after the last writeContents, opening the directory gives either the old or the new table and never fails.", "quantifier": "every history and every crash point", "why_tests_cant": "ranges over crash points", "anchors": ["Lib/ufoLib/glifLib.py:GlyphSet.writeContents", "Lib/ufoLib/glifLib.py:GlyphSet.rebuildContents"]}
{"id": "C56", "title": "Unchanged data is not rewritten", "statement": "When a UFO or glyph set already existed, writing data equal to the file's content performs no write on that file.", "quantifier": "every file system state and every data", "why_tests_cant": "quantifies over all data", "anchors": ["Lib/ufoLib/__init__.py:_writePlist", "Lib/ufoLib/__init__.py:UFOWriter.writeBytesToPath", "Lib/ufoLib/glifLib.py:GlyphSet.writeGlyph"]}
{"id": "C57", "title": "A UFO's format version never decreases and is always supported", "statement": "Opening an existing UFO with UFOWriter for a lower format version raises and leaves the file unchanged; after any sequence of successful openings the version in metainfo.plist is the version last requested, is 1, 2 or 3, and never decreased.", "quantifier": "every sequence of writer openings with arbitrary versions", "why_tests_cant": "histories of openings", "anchors": ["Lib/ufoLib/__init__.py:UFOWriter.__init__", "Lib/ufoLib/__init__.py:UFOReader.readMetaInfo"]}
{"id": "C58", "title": "Layer directories are pairwise distinct and well formed", "statement": "After any sequence of getGlyphSet, renameGlyphSet and deleteGlyphSet calls on a UFO 3 writer, different layers are stored in different directories (ignoring case), each named glyphs or glyphs.*.", "quantifier": "every sequence of layer operations with arbitrary names and flags", "why_tests_cant": "unbounded histories; the defaultLayer flag interacts with same-name renames", "anchors": ["Lib/ufoLib/__init__.py:UFOWriter.getGlyphSet", "Lib/ufoLib/__init__.py:UFOWriter.renameGlyphSet", "Lib/ufoLib/__init__.py:UFOWriter.deleteGlyphSet"]}
{"id": "C59", "title": "A written layercontents.plist is accepted by the reader", "statement": "If writeLayerContents with validation succeeds after any sequence of layer operations, UFOReader accepts the layer contents and reports the same layers in the given order.", "quantifier": "every history of layer operations and every layer order argument", "why_tests_cant": "writer and reader check different conditions", "anchors": ["Lib/ufoLib/__init__.py:UFOWriter.writeLayerContents", "Lib/ufoLib/__init__.py:UFOReader.getLayerNames", "Lib/ufoLib/validators.py:layerContentsValidator"]}
{"id": "C60", "title": "What was last written is what is read", "statement": "After any sequence of successful writeInfo, writeLib, writeGroups, writeKerning and writeFeatures calls, reading each item gives the value last written (absent and empty are the same).", "quantifier": "every sequence of writes, including writes of empty values, to new and existing UFOs", "why_tests_cant": "histories of writes", "anchors": ["Lib/ufoLib/__init__.py:UFOWriter.writeLib", "Lib/ufoLib/__init__.py:UFOWriter.writeGroups", "Lib/ufoLib/__init__.py:UFOWriter.writeKerning", "Lib/ufoLib/__init__.py:UFOWriter.writeFeatures", "Lib/ufoLib/__init__.py:UFOReader.readLib"]}
{"id": "C61", "title": "A failed property list write does not destroy the file", "statement": "If writing a property list raises because the data cannot be represented, the previous file content is unchanged.", "quantifier": "every file system state and every unrepresentable value", "why_tests_cant": "the failing value can be anywhere inside the data; both creation modes matter", "anchors": ["Lib/ufoLib/__init__.py:_writePlist"]}
{"id": "C62", "title": "Every supported format version can write glyphs", "statement": "For every supported format version, UFOWriter.getGlyphSet() for the default layer returns a usable glyph set.", "quantifier": "every format version and every writer state", "why_tests_cant": "only one branch is wrong and it is not covered by the tests of the other versions", "anchors": ["Lib/ufoLib/__init__.py:UFOWriter._getGlyphSetFormatVersion1", "Lib/ufoLib/__init__.py:UFOWriter.getGlyphSet"]}
{"id": "C63", "title": "Only PNG data is accepted as images", "statement": "writeImage with validation stores data only if it begins with the PNG signature; readImage with validation returns only such data; getImageDirectoryListing lists exactly the files of the images directory with that signature.", "quantifier": "every byte string, file name and directory content", "why_tests_cant": "infinite domain of byte strings", "anchors": ["Lib/ufoLib/__init__.py:UFOWriter.writeImage", "Lib/ufoLib/__init__.py:UFOReader.readImage", "Lib/ufoLib/__init__.py:UFOReader.getImageDirectoryListing", "Lib/ufoLib/validators.py:pngValidator"]}
{"id": "C64", "title": "The character mapping is the inverse of the unicode table", "statement": "getCharacterMapping()[code] lists exactly the glyphs whose unicode values contain code, each once, and has no other keys.", "quantifier": "every glyph set", "why_tests_cant": "unbounded relation inversion", "anchors": ["Lib/ufoLib/__init__.py:UFOReader.getCharacterMapping"]}
{"id": "C65", "title": "makeUFOPath keeps the directory and replaces only the extension", "statement": "makeUFOPath(path) has the directory of path and its base name with the last extension replaced by .ufo (.ufo appended when there is none), and applying it twice gives the same path as applying it once.", "quantifier": "every path", "why_tests_cant": "infinite domain; names without extension are a special case", "anchors": ["Lib/ufoLib/__init__.py:makeUFOPath"]}
{"id": "C66", "title": "Bytes written to a path are read back and other files are untouched", "statement": "After writeBytesToPath(path, data) succeeds, readBytesFromPath(path) returns data and every other file keeps its content; after removePath(path) the path does not exist and files outside it keep their content.", "quantifier": "every file system state, path and data", "why_tests_cant": "unbounded file system states", "anchors": ["Lib/ufoLib/__init__.py:UFOWriter.writeBytesToPath", "Lib/ufoLib/__init__.py:UFOWriter.removePath", "Lib/ufoLib/__init__.py:_readBytesFromPath"]}
{"id": "C67", "title": "Property lists survive writing and reading", "statement": "plistlib.loads(plistlib.dumps(v)) == v for every value a property list can represent, with pretty printing on or off, and with any nesting of bytes, dates and containers (tuples come back as lists).", "quantifier": "every representable value, of any nesting depth and size", "why_tests_cant": "infinite recursive domain; the indentation added for pretty printing must never be taken for data", "anchors": ["Lib/ufoLib/plistlib.py:dumps", "Lib/ufoLib/plistlib.py:loads", "Lib/ufoLib/plistlib.py:PlistTarget", "Lib/ufoLib/etree.py:_serialize_xml", "Lib/ufoLib/etree.py:_indent"]}
{"id": "C68", "title": "Name record, WOFF metadata and image validators accept exactly the documented structures", "statement": "The validators for OpenType name records, each WOFF metadata attribute and image references accept a value iff it has the documented structure: the required keys, no unknown keys, values of the documented types at every level, directions ltr or rtl, at least one credit and extension.", "quantifier": "every Python value, nested to any depth", "why_tests_cant": "recursive structures with optional keys at every level", "anchors": ["Lib/ufoLib/validators.py:fontInfoOpenTypeNameRecordsValidator", "Lib/ufoLib/validators.py:fontInfoWOFFMetadataExtensionsValidator", "Lib/ufoLib/validators.py:fontInfoWOFFMetadataCreditsValidator", "Lib/ufoLib/validators.py:imageValidator"]}
{"id": "C69", "title": "A writer call changes only the entry it is about", "statement": "Every UFOWriter and GlyphSet call, whether it returns or raises, leaves everything below the other entries of the UFO untouched: writeLib only touches lib.plist, layer calls only directories named glyphs or glyphs.*, image calls only images, and so on; the format version of the writer never changes.", "quantifier": "every call with arbitrary arguments, in every writer state, and every history of calls", "why_tests_cant": "unbounded states and histories; error paths in the middle of multi-step calls count too", "anchors": ["Lib/ufoLib/__init__.py:UFOWriter", "Lib/ufoLib/glifLib.py:GlyphSet"]}
{"id": "C70", "title": "The images directory only ever holds PNG files", "statement": "If every file in images is a PNG file then, after any history of calls in which images are only written with validation, removed, or copied from another UFO, every file in images still begins with the PNG signature, also when calls raise.", "quantifier": "every history of calls, file system state and image data", "why_tests_cant": "unbounded histories, including failing calls", "anchors": ["Lib/ufoLib/__init__.py:UFOWriter.writeImage", "Lib/ufoLib/__init__.py:UFOWriter.removeImage", "Lib/ufoLib/__init__.py:UFOWriter.copyImageFromReader"]}
{"id": "C71", "title": "Glyphs survive being written to a file and read from it", "statement": "A glyph written with writeGlyphToString or GlyphSet.writeGlyph and read with readGlyphFromString or GlyphSet.readGlyph has the same outline calls, name, unicode values, advance, note, image, guidelines, anchors and lib, whatever other glyphs were written or deleted in between. Writing it to bytes succeeds whenever the data is accepted.", "quantifier": "every glyph of any size, every drawing, every history of calls on the glyph set", "why_tests_cant": "composition of writer, XML serializer, encoder, XML parser and reader over an infinite domain", "anchors": ["Lib/ufoLib/glifLib.py:writeGlyphToString", "Lib/ufoLib/glifLib.py:_writeGlyphToBytes", "Lib/ufoLib/glifLib.py:readGlyphFromString", "Lib/ufoLib/glifLib.py:GlyphSet.writeGlyph", "Lib/ufoLib/glifLib.py:GlyphSet.readGlyph", "Lib/ufoLib/etree.py:tostring"]}
{"id": "C72", "title": "Layer info survives writing and reading", "statement": "The color and lib given to GlyphSet.writeLayerInfo are what readLayerInfo sets afterwards, and nothing else, whatever glyphs are written or deleted in between. Only layerinfo.plist is touched. Invalid layer info, and any layer info in a UFO before version 3, is refused with GlifLibError and changes nothing.", "quantifier": "every info object, every glyph set state and every history of glyph set calls", "why_tests_cant": "infinite domain of lib values and unbounded histories", "anchors": ["Lib/ufoLib/glifLib.py:GlyphSet.readLayerInfo", "Lib/ufoLib/glifLib.py:GlyphSet.writeLayerInfo", "Lib/ufoLib/glifLib.py:validateLayerInfoVersion3Data"]}
{"id": "C73", "title": "Loading and saving a UFO 1 or 2 keeps its groups and kerning files", "statement": "If the groups, kerning and rename maps that a UFOReader returns for a UFO 1 or 2 are given to a UFOWriter for version 1 or 2, with any other calls in between, then groups.plist and kerning.plist hold the same groups, pairs and values as before loading.", "quantifier": "every groups and kerning content, every order of reader calls, every history of writer calls, every set iteration order", "why_tests_cant": "infinite data and unbounded histories; composition of parser, up-conversion, cache, down-conversion and serializer", "anchors": ["Lib/ufoLib/__init__.py:UFOReader._upConvertKerning", "Lib/ufoLib/__init__.py:UFOReader.readGroups", "Lib/ufoLib/__init__.py:UFOReader.readKerning", "Lib/ufoLib/__init__.py:UFOReader.getKerningGroupConversionRenameMaps", "Lib/ufoLib/__init__.py:UFOWriter.setKerningGroupConversionRenameMaps", "Lib/ufoLib/__init__.py:UFOWriter.writeGroups", "Lib/ufoLib/__init__.py:UFOWriter.writeKerning", "Lib/ufoLib/converters.py:convertUFO1OrUFO2KerningToUFO3Kerning"]}
{"id": "C74", "title": "Zipped UFOs behave like packages and change only when closed", "statement": "An existing .ufoz is not changed by opening a UFOWriter on it or by any call, only by close; a new one appears only at close. After close, a UFOReader finds exactly the files the writer left and the version written. Opening, reading and every call give the same outcome as for a package with the same files. The structure of an existing UFO never changes, and archives without exactly one root directory are refused unchanged. The structure argument decides what is created, and closing again changes nothing.", "quantifier": "every archive, every package, every structure argument and every history of calls", "why_tests_cant": "unbounded histories, two code paths that must agree, crash at any point before close", "anchors": ["Lib/ufoLib/__init__.py:UFOReader.__init__", "Lib/ufoLib/__init__.py:UFOWriter.__init__", "Lib/ufoLib/__init__.py:UFOWriter.close", "Lib/ufoLib/__init__.py:_sniffFileStructure"]}
{"id": "C75", "title": "Layers do not disturb each other", "statement": "However the calls on the glyph sets of different layers of one UFOWriter are interleaved, with calls on the writer (such as getting, renaming and deleting other layers) in between, each glyph set behaves as if only its own calls were made: its calls return or raise in the same way, its table is the same, and its directory holds the same files.", "quantifier": "every interleaving of calls on any number of glyph sets and on the writer, every file system state", "why_tests_cant": "unbounded interleavings on shared state", "anchors": ["Lib/ufoLib/__init__.py:UFOWriter.getGlyphSet", "Lib/ufoLib/__init__.py:UFOWriter.renameGlyphSet", "Lib/ufoLib/__init__.py:UFOWriter.deleteGlyphSet", "Lib/ufoLib/glifLib.py:GlyphSet.writeGlyph", "Lib/ufoLib/glifLib.py:GlyphSet.deleteGlyph", "Lib/ufoLib/glifLib.py:GlyphSet.writeContents", "Lib/ufoLib/glifLib.py:GlyphSet.writeLayerInfo"]}
{"id": "C76", "title": "What a program saves is what is loaded", "statement": "A program opens a UFOWriter, gets glyph sets for layers, writes and deletes glyphs and layer info, writes the contents of the glyph sets and the layer contents, in any interleaving. A UFOReader then finds every layer with exactly the glyphs that were written and not deleted, each read as it was last written, and the layer info last written.", "quantifier": "every program: any number of layers, any interleaving of calls, any glyphs", "why_tests_cant": "composition of the whole write path and the whole read path over unbounded histories", "anchors": ["Lib/ufoLib/__init__.py:UFOWriter.getGlyphSet", "Lib/ufoLib/__init__.py:UFOWriter.writeLayerContents", "Lib/ufoLib/__init__.py:UFOReader.getGlyphSet", "Lib/ufoLib/__init__.py:UFOReader.getLayerNames", "Lib/ufoLib/glifLib.py:GlyphSet.writeGlyph", "Lib/ufoLib/glifLib.py:GlyphSet.writeContents", "Lib/ufoLib/glifLib.py:GlyphSet.rebuildContents", "Lib/ufoLib/glifLib.py:GlyphSet.readGlyph"]}
{"id": "C77", "title": "Renaming and deleting layers loses nothing else", "statement": "After renameGlyphSet(old, new, default) returns, getGlyphSet(new) has the glyphs, GLIF texts and layer info that getGlyphSet(old) had, the old name is gone, the layer is the default layer exactly if asked for, and every other layer is as it was. A rename that is refused changes nothing. After deleteGlyphSet(name) returns, the layer and its directory are gone and every other layer is as it was. Once writeLayerContents returns, UFOReader finds the same layers with the same content.", "quantifier": "every layer table, every content of the layers, every name", "why_tests_cant": "unbounded layer tables and directory contents; interplay of name generation, directory moves and the layer table", "anchors": ["Lib/ufoLib/__init__.py:UFOWriter.renameGlyphSet", "Lib/ufoLib/__init__.py:UFOWriter.deleteGlyphSet", "Lib/ufoLib/__init__.py:UFOWriter.writeLayerContents", "Lib/ufoLib/__init__.py:UFOWriter._findDirectoryForLayerName", "Lib/ufoLib/__init__.py:UFOReader.getGlyphSet"]}
{"id": "C78", "title": "What a property list file delivers can be saved again", "statement": "Every value that reading a property list delivers, from whatever text, consists of property list types only, can be written, reads back as the same value, and saving that again gives the very same file.", "quantifier": "every text that is accepted as a property list", "why_tests_cant": "all texts in every spelling XML and the number, date and data formats allow; unbounded nesting", "anchors": ["Lib/ufoLib/plistlib.py:loads", "Lib/ufoLib/plistlib.py:dumps", "Lib/ufoLib/plistlib.py:PlistTarget", "Lib/ufoLib/plistlib.py:_make_element"]}
{"id": "C79", "title": "Loading any UFO and saving it as UFO 3 loses nothing", "statement": "Whatever info, groups, kerning, lib and features a validating UFOReader delivers from a UFO 1, 2 or 3, a UFO 3 UFOWriter saves without complaint, in the same UFO or in another one, in any order and among any other calls; a UFOReader of the result delivers the same. Upgrading a UFO 1 or 2 in place and writing its layer contents, the reader finds one layer with the same glyphs, GLIF texts and layer info as before, and every other file is untouched. If the program stops half-way, the UFO can still be read.", "quantifier": "every UFO of every version, every order of the saving calls, every interleaving with other calls", "why_tests_cant": "all contents that three versions of the format can deliver, composed with conversion, validation and every order of saving", "anchors": ["Lib/ufoLib/__init__.py:UFOReader.readInfo", "Lib/ufoLib/__init__.py:UFOReader.readGroups", "Lib/ufoLib/__init__.py:UFOReader.readKerning", "Lib/ufoLib/__init__.py:UFOReader.readLib", "Lib/ufoLib/__init__.py:UFOReader.readFeatures", "Lib/ufoLib/__init__.py:UFOReader._upConvertKerning", "Lib/ufoLib/__init__.py:UFOWriter.__init__", "Lib/ufoLib/__init__.py:UFOWriter.writeInfo", "Lib/ufoLib/__init__.py:UFOWriter.writeGroups", "Lib/ufoLib/__init__.py:UFOWriter.writeKerning", "Lib/ufoLib/__init__.py:UFOWriter.writeLib", "Lib/ufoLib/__init__.py:UFOWriter.writeFeatures", "Lib/ufoLib/__init__.py:UFOWriter.writeLayerContents"]}
{"id": "C80", "title": "A glyph read from any file can be written again and stays the same glyph", "statement": "If readGlyphFromString with validation accepts a GLIF text of format 1 or 2, whoever wrote it, then writeGlyphToString with validation accepts the attributes and the drawing it delivered, and reading the new text delivers the same name, advance, unicodes, note, image, guidelines, anchors, lib and the same pen calls.", "quantifier": "every byte sequence accepted by the reader, format 1 and 2, both XML backends", "why_tests_cant": "the GLIF texts other programs write differ in quoting, order of attributes and sections, number formats, anchors in format 1; every accepted text is covered", "anchors": ["Lib/ufoLib/glifLib.py:readGlyphFromString", "Lib/ufoLib/glifLib.py:writeGlyphToString", "Lib/ufoLib/glifLib.py:_writeGlyphToBytes", "Lib/ufoLib/glifLib.py:_readGlyphFromTree", "Lib/ufoLib/glifLib.py:_readGlyphFromTreeFormat1", "Lib/ufoLib/glifLib.py:_readGlyphFromTreeFormat2", "Lib/ufoLib/glifLib.py:GLIFPointPen"]}
{"id": "C81", "title": "A rewritten glyph file settles", "statement": "Writing a glyph, reading it and writing what was read gives the same bytes again; in particular a glyph that was loaded from any file and saved once is not changed by loading and saving it a second time, so version control shows no spurious differences.", "quantifier": "every glyph that can be written, and every byte sequence accepted by the reader", "why_tests_cant": "byte identity over all glyph data, number formats, defaults and orders of dictionary items", "anchors": ["Lib/ufoLib/glifLib.py:readGlyphFromString", "Lib/ufoLib/glifLib.py:writeGlyphToString", "Lib/ufoLib/glifLib.py:_writeGlyphToBytes", "Lib/ufoLib/glifLib.py:_readNote", "Lib/ufoLib/glifLib.py:_writeNote", "Lib/ufoLib/glifLib.py:GLIFPointPen", "Lib/ufoLib/plistlib.py:totree"]}
{"id": "C82", "title": "A writer call that is interrupted damages at most the entry it is about", "statement": "If the process stops at any point of a UFOWriter call (between two changes of the file system, or in the middle of writing a file, removing a tree or moving a tree), then a reader finds every entry of the UFO that the call is not about exactly as before the call: the version, the other files, images and data, and the glyphs of other layers. The list of layers can still be read.", "quantifier": "every history of calls, every call, every crash point, whatever part of the interrupted change has reached the disk", "why_tests_cant": "crash points cannot be enumerated by tests; the interrupted operation may leave arbitrary content behind", "anchors": ["Lib/ufoLib/__init__.py:UFOWriter", "Lib/ufoLib/__init__.py:UFOFileStructure", "Lib/ufoLib/__init__.py:_UFOBaseIO._writePlist", "Lib/ufoLib/__init__.py:UFOWriter.deleteGlyphSet", "Lib/ufoLib/__init__.py:UFOWriter.renameGlyphSet", "Lib/ufoLib/__init__.py:UFOWriter.writeLayerContents", "Lib/ufoLib/__init__.py:UFOReader"]}
{"id": "C83", "title": "A glyph set call that is interrupted damages at most the glyph it is about", "statement": "If the process stops at any point of writeGlyph or deleteGlyph, every other glyph has the text last written, and contents.plist and layerinfo.plist are as before; if it stops in writeContents or writeLayerInfo, no glyph is changed. A program that only writes glyphs after contents.plist was saved can be stopped anywhere: the glyph set opens with the saved table and every glyph not written since is unchanged.", "quantifier": "every history of glyph set calls, every call, every crash point, any partial content of the file being written", "why_tests_cant": "crash points and histories cannot be enumerated by tests", "anchors": ["Lib/ufoLib/glifLib.py:GlyphSet.writeGlyph", "Lib/ufoLib/glifLib.py:GlyphSet.deleteGlyph", "Lib/ufoLib/glifLib.py:GlyphSet.writeContents", "Lib/ufoLib/glifLib.py:GlyphSet.writeLayerInfo", "Lib/ufoLib/glifLib.py:GlyphSet.rebuildContents"]}
{"id": "C84", "title": "Copying the glyphs of a layer keeps them", "statement": "Load every glyph of a layer of any UFO with readGlyph, and write each under its name to a new glyph set of a UFO 3 with writeGlyph: every call returns, the new glyph set lists the same names, and every glyph read from it has the same attributes and draws the same; the same holds after writeContents for the directory opened again. The name written inside the old file does not matter.", "quantifier": "every source layer of UFO 1, 2 or 3, every list of glyphs with different names and whatever text their files have, every order of writing", "why_tests_cant": "the texts and combinations of names are unbounded, and a clash of file names depends on all of them", "anchors": ["Lib/ufoLib/glifLib.py:GlyphSet.readGlyph", "Lib/ufoLib/glifLib.py:GlyphSet.writeGlyph", "Lib/ufoLib/glifLib.py:GlyphSet.writeContents", "Lib/ufoLib/glifLib.py:GlyphSet.rebuildContents", "Lib/ufoLib/glifLib.py:_writeGlyphToBytes", "Lib/ufoLib/glifLib.py:_readGlyphFromTree", "Lib/ufoLib/glifLib.py:glyphNameToFileName"]}
{"id": "C85", "title": "A copied and saved layer is settled", "statement": "Once the glyphs of a layer have been written and the table saved, loading glyphs from it and writing them back, in any order and with any naming function, and saving the table again, returns without error and touches no file.", "quantifier": "every source layer, every list of glyphs, every sequence of loads and writes afterwards", "why_tests_cant": "a formatter that is not a fixed point, or a table saved in another order, shows only on particular texts and names", "anchors": ["Lib/ufoLib/glifLib.py:GlyphSet.writeGlyph", "Lib/ufoLib/glifLib.py:GlyphSet.writeContents", "Lib/ufoLib/glifLib.py:_writeGlyphToBytes", "Lib/ufoLib/__init__.py:_UFOBaseIO._writePlist", "Lib/ufoLib/plistlib.py:dumps"]}
{"id": "C86", "title": "Every glyph that can be read can be drawn with a segment pen", "statement": "glyphSet[name].draw(pen) raises exactly when reading the glyph raises, with the same exception. Otherwise the calls on the pen keep the protocol of segment pens and draw, in the order of the file, the components and the paths that the points of the contours describe; only contours without points and closing lines of length zero are left out.", "quantifier": "every glyph set, every name and every text of the glyph file, whatever contours it has", "why_tests_cant": "the combinations of point types, starting points and contour lengths are unbounded", "anchors": ["Lib/ufoLib/glifLib.py:Glyph.draw", "Lib/ufoLib/glifLib.py:Glyph.drawPoints", "Lib/ufoLib/glifLib.py:GlyphSet.__getitem__", "Lib/ufoLib/glifLib.py:GlyphSet.readGlyph", "Lib/ufoLib/glifLib.py:_validateAndMassagePointStructures", "Lib/ufoLib/pointPen.py:BasePointToSegmentPen.endPath", "Lib/ufoLib/pointPen.py:PointToSegmentPen._flushContour"]}
{"id": "C87", "title": "Reversing a glyph draws the same curves backwards", "statement": "A glyph that was read, drawn through ReverseContourPointPen: the pen does not raise, components and identifiers are kept, every contour keeps its points with their smoothness, names and identifiers, and describes the same curve in the other direction (lines stay lines, curves keep their off-curve points in opposite order). The result can be written and is read again as it is, and reversing it once more gives the glyph as it was.", "quantifier": "every text of a glyph file, whatever contours it has; every contour that describes a curve", "why_tests_cant": "the combinations of point types, starting points and contour lengths are unbounded", "anchors": ["Lib/ufoLib/pointPen.py:ReverseContourPointPen._flushContour", "Lib/ufoLib/pointPen.py:ReverseContourPointPen.addComponent", "Lib/ufoLib/glifLib.py:readGlyphFromString", "Lib/ufoLib/glifLib.py:GLIFPointPen.addPoint", "Lib/ufoLib/glifLib.py:_validateAndMassagePointStructures"]}
{"id": "C88", "title": "Segment pen calls become contours that describe the same paths", "statement": "Any sequence of calls that keeps the protocol of segment pens (moveTo, lines and curves, closePath or endPath; qCurveTo with None as last point for a loop; components between contours) is accepted by SegmentToPointPen, and the contours it draws describe, in order, the paths the calls draw. So a drawing that the reader accepts comes through PointToSegmentPen and SegmentToPointPen describing the same paths.", "quantifier": "every sequence of calls that keeps the protocol; every drawing the reader would accept; any coordinates", "why_tests_cant": "the sequences of calls are unbounded, and whether the closing line is written depends on coinciding points", "anchors": ["Lib/ufoLib/pointPen.py:SegmentToPointPen.closePath", "Lib/ufoLib/pointPen.py:SegmentToPointPen.qCurveTo", "Lib/ufoLib/pointPen.py:SegmentToPointPen.curveTo", "Lib/ufoLib/pointPen.py:SegmentToPointPen.endPath", "Lib/ufoLib/pointPen.py:BasePointToSegmentPen.endPath", "Lib/ufoLib/pointPen.py:PointToSegmentPen._flushContour"]}
{"id": "C89", "title": "Loading a whole font of any UFO version and saving it as a new UFO 3 loses nothing", "statement": "Take everything a reader delivers with validation from a UFO of any version: font info, groups, kerning, lib, features, and every layer with its glyphs and layer info. A writer opens for an empty directory; whatever the order in which a program makes the calls that save these parts (one getGlyphSet per layer in the order of the layers, the calls of a layer on its glyph set, all interleaved in any way), every call returns, writeLayerContents returns at the end, and then a reader delivers the same font: the same content, and the same layers in the same order with the same default layer, the same glyphs and the same layer info.", "quantifier": "every UFO of every version whose parts a reader delivers; every interleaving of the calls that save them, with unrelated calls in between; layer order given or left to the writer", "why_tests_cant": "the fonts, the layers and the interleavings are unbounded, and the parts of one font share one directory whose file and directory names the library invents", "anchors": ["Lib/ufoLib/__init__.py:UFOReader.readInfo", "Lib/ufoLib/__init__.py:UFOReader.getGlyphSet", "Lib/ufoLib/__init__.py:UFOReader.getLayerNames", "Lib/ufoLib/__init__.py:UFOReader.getDefaultLayerName", "Lib/ufoLib/__init__.py:UFOWriter.getGlyphSet", "Lib/ufoLib/__init__.py:UFOWriter.writeLayerContents", "Lib/ufoLib/__init__.py:UFOWriter.writeInfo", "Lib/ufoLib/__init__.py:UFOWriter.writeGroups", "Lib/ufoLib/__init__.py:UFOWriter.writeKerning", "Lib/ufoLib/__init__.py:UFOWriter.writeLib", "Lib/ufoLib/__init__.py:UFOWriter.writeFeatures", "Lib/ufoLib/glifLib.py:GlyphSet.writeGlyph", "Lib/ufoLib/glifLib.py:GlyphSet.writeContents", "Lib/ufoLib/glifLib.py:GlyphSet.writeLayerInfo", "Lib/ufoLib/glifLib.py:GlyphSet.readLayerInfo", "Lib/ufoLib/glifLib.py:GlyphSet.readGlyph"]}
{"id": "C90", "title": "Images and data files survive loading and saving, together with the whole font", "statement": "Take the images and data files a reader delivers from a UFO of any version (getImageDirectoryListing and readImage with validation, getDataDirectoryListing and readBytesFromPath). In a writer for an empty directory, whatever the order of the calls writeImage and writeBytesToPath that save them and whatever other calls are made about other parts of the UFO, every one of them returns, and then a reader lists exactly these files (under the names the file system keeps) and delivers the same bytes. Saved together with a whole font as in C89, the font comes back the same as well.", "quantifier": "every set of images and data files a reader delivers; every interleaving of the calls that save them with calls that save the font or are about other files; file systems that do and do not ignore case", "why_tests_cant": "sets of files, directory trees and interleavings are unbounded; directories are made on the way, and the listings walk whatever is there", "anchors": ["Lib/ufoLib/__init__.py:UFOReader.getImageDirectoryListing", "Lib/ufoLib/__init__.py:UFOReader.readImage", "Lib/ufoLib/__init__.py:UFOReader.getDataDirectoryListing", "Lib/ufoLib/__init__.py:UFOReader.readBytesFromPath", "Lib/ufoLib/__init__.py:UFOWriter.writeImage", "Lib/ufoLib/__init__.py:UFOWriter.writeBytesToPath"]}
{"id": "C91", "title": "Damaged files make the readers raise the exceptions of the library only", "statement": "With validation, reading the lib, groups, kerning, layer names, image list and layer info of a UFO 3 raises nothing but UFOLibError (layer info: or GlifLibError), whatever the files hold. The same is expected of opening a layer, reading the format version, the features, the font info, a glyph, and the groups, kerning and rename maps of UFO 1 and 2, however often they are read while the files change.", "quantifier": "every content of every file and every state of the directory tree; every GLIF tree; every history of calls on a reader of UFO 1 or 2", "why_tests_cant": "a test damages a file in one way; the claim is about every sequence of bytes, and a validator that trusts the shape of one value raises something else", "anchors": ["Lib/ufoLib/__init__.py:UFOReader.readLib", "Lib/ufoLib/__init__.py:UFOReader.readGroups", "Lib/ufoLib/__init__.py:UFOReader.readKerning", "Lib/ufoLib/__init__.py:UFOReader.readInfo", "Lib/ufoLib/__init__.py:UFOReader.readMetaInfo", "Lib/ufoLib/__init__.py:UFOReader.readFeatures", "Lib/ufoLib/__init__.py:UFOReader.getLayerNames", "Lib/ufoLib/__init__.py:UFOReader.getGlyphSet", "Lib/ufoLib/__init__.py:UFOReader.getImageDirectoryListing", "Lib/ufoLib/glifLib.py:GlyphSet.readLayerInfo", "Lib/ufoLib/glifLib.py:GlyphSet.readGlyph", "Lib/ufoLib/glifLib.py:readGlyphFromString"]}
{"id": "C92", "title": "Validation only refuses", "statement": "A call that succeeds with validation does exactly the same with validation switched off: a reader returns the same data, makes the same calls on the pen, and a writer writes the same bytes and keeps the same tables. This covers reading, writing and drawing glyphs, all readers and writers of a UFO, opening readers and writers, and whole histories of calls on a writer that do not raise.", "quantifier": "every glyph, every content of the files, every argument, every history of calls none of which raises", "why_tests_cant": "a test compares the two modes on one input; that no branch guarded by the flag changes what is done is a claim about all of them", "anchors": ["Lib/ufoLib/glifLib.py:readGlyphFromString", "Lib/ufoLib/glifLib.py:GlyphSet.readGlyph", "Lib/ufoLib/glifLib.py:GlyphSet.writeGlyph", "Lib/ufoLib/glifLib.py:_writeUnicodes", "Lib/ufoLib/glifLib.py:GLIFPointPen", "Lib/ufoLib/__init__.py:UFOReader", "Lib/ufoLib/__init__.py:UFOWriter", "Lib/ufoLib/__init__.py:UFOReader.getImageDirectoryListing"]}
{"id": "C93", "title": "A saved font is settled", "statement": "Load a font from a UFO of any version and save it in an empty directory as UFO 3. Whoever then loads it from there, opens a writer on that UFO naming the same creator, and saves what was loaded in place (any of the glyphs, tables of contents, layer infos, info, groups, kerning, lib, features and layer contents, in any order, any number of times and with any function that makes up file names): every call returns and none performs an operation on the file system, so no file gets a new modification time.", "quantifier": "every font that a reader delivers, every program that saves it, every program that saves it again in place", "why_tests_cant": "a test compares two saves of one font made by one program; that the second never writes needs the text of every file to depend only on what the reader delivers, for all fonts and orders of calls", "anchors": ["Lib/ufoLib/__init__.py:UFOWriter.__init__", "Lib/ufoLib/__init__.py:UFOWriter._writePlist", "Lib/ufoLib/__init__.py:UFOWriter.getGlyphSet", "Lib/ufoLib/__init__.py:UFOWriter.writeLayerContents", "Lib/ufoLib/__init__.py:writeFileAtomically", "Lib/ufoLib/glifLib.py:GlyphSet.writeGlyph", "Lib/ufoLib/glifLib.py:GlyphSet.writeContents", "Lib/ufoLib/glifLib.py:GlyphSet.writeLayerInfo"]}
{"id": "C94", "title": "A UFO of an older version gets only what its version defines", "statement": "A UFOWriter for version 1 or 2, whatever font data is written with it and whether calls return or raise, touches only the entries of the UFO that its version defines (no layercontents.plist, no layer directories other than glyphs, no images, and no features.fea in version 1). Its glyph sets write format 1 glyphs only and no layer info, and its fontinfo.plist holds only attributes of its version.", "quantifier": "every history of calls about font data on a writer of version 1 or 2, every font info, every glyph", "why_tests_cant": "the guards are spread over two dozen methods and two modules; that none of them lets something through needs all calls and histories", "anchors": ["Lib/ufoLib/__init__.py:UFOWriter.getGlyphSet", "Lib/ufoLib/__init__.py:UFOWriter.renameGlyphSet", "Lib/ufoLib/__init__.py:UFOWriter.deleteGlyphSet", "Lib/ufoLib/__init__.py:UFOWriter.writeLayerContents", "Lib/ufoLib/__init__.py:UFOWriter.writeImage", "Lib/ufoLib/__init__.py:UFOWriter.writeFeatures", "Lib/ufoLib/__init__.py:UFOWriter.writeInfo", "Lib/ufoLib/__init__.py:_convertFontInfoDataVersion2ToVersion1", "Lib/ufoLib/glifLib.py:GlyphSet.writeGlyph", "Lib/ufoLib/glifLib.py:GlyphSet.writeLayerInfo"]}
{"id": "C95", "title": "Copying from another UFO is faithful", "statement": "copyFromReader(reader, source, dest) raises UFOLibError and changes nothing if the source does not exist or the destination does. Otherwise it succeeds unless a file is in the way of a directory. Afterwards a copied file has the bytes of the source, a copied directory has exactly the files and directories below the source, and all other files keep their content. A copied image is read as the image it is a copy of.", "quantifier": "every pair of file systems, every source and destination path, every directory tree", "why_tests_cant": "unbounded trees and two independent file system states, which may compare names differently", "anchors": ["Lib/ufoLib/__init__.py:UFOWriter.copyFromReader", "Lib/ufoLib/__init__.py:UFOWriter.copyImageFromReader", "Lib/ufoLib/__init__.py:UFOReader.readImage"]}
{"id": "C96", "title": "Glyph files of any origin are read for exactly what they say", "statement": "readGlyphFromString succeeds on a GLIF file, whoever wrote it, exactly if the file is legal GLIF 1 or GLIF 2 (attributes the formats do not define are ignored on glyph, advance, unicode, note and lib elements and refused elsewhere; the lib is a property list as plistlib reads it), and then sets on the glyph object and draws on the pen exactly what the elements say: numbers and code points as written (integers, otherwise floats; hexadecimal in either case), missing values replaced by their defaults, repeated code points once, contours and components in their order, single named move points of format 1 as anchors, identifiers unique and legal. A file says at most one thing, and the order of elements of different kinds does not matter.", "quantifier": "every byte string, every element tree, every list of supported versions", "why_tests_cant": "unbounded set of foreign files; both directions (nothing illegal accepted, nothing legal refused) are universal", "anchors": ["Lib/ufoLib/glifLib.py:readGlyphFromString", "Lib/ufoLib/glifLib.py:_readGlyphFromTreeFormat1", "Lib/ufoLib/glifLib.py:_readGlyphFromTreeFormat2", "Lib/ufoLib/glifLib.py:_buildOutlineObjectsFormat1", "Lib/ufoLib/glifLib.py:_buildOutlineObjectsFormat2", "Lib/ufoLib/glifLib.py:_validateAndMassagePointStructures", "Lib/ufoLib/glifLib.py:_number"]}
{"id": "C97", "title": "Property lists of any origin are read for what they say", "statement": "A property list that follows the document type (dict with keys and values in turn, array, string, integer, real, true, false, data in base64 with white space anywhere, date), whoever wrote it, is read successfully exactly if its numbers and dates are legal, and the value read is the one it says: integers and real numbers as written, bytes as encoded, dates with missing parts zero and refused when there is no such day, dictionaries with the keys in the order of their first occurrence and of repeated keys the last value. This holds for files, for trees and for the lib of a glyph. A property list says at most one thing.", "quantifier": "every element tree that follows the document type, every UTF-8 file with such a value", "why_tests_cant": "unbounded set of foreign files, nested to any depth; both directions are universal", "anchors": ["Lib/ufoLib/plistlib.py:fromtree", "Lib/ufoLib/plistlib.py:load", "Lib/ufoLib/plistlib.py:loads", "Lib/ufoLib/plistlib.py:PlistTarget", "Lib/ufoLib/plistlib.py:_date_from_string", "Lib/ufoLib/plistlib.py:end_data"]}
{"id": "C98", "title": "Font info is accepted exactly if it is legal, and every version is read for what it says", "statement": "For every attribute of fontinfo.plist, the values accepted when reading and writing are exactly those of its type in the tables of the specification (strings, integers, numbers, non-negative ones, booleans, the style names, dates with an existing day, bit lists, classes, panose, blues, stems, character sets, gasp and name records, WOFF metadata, guidelines), with the laxities named in the specification of the model. UFO 3 info is read exactly if all known attributes are legal; UFO 2 info exactly if what they stand for (nearest integers, absolute values) is; UFO 1 info exactly if what they stand for under their new names (styles, widths and character sets by name, integral floats as integers, weight -1 as none) is; and the result is exactly that. Info is written to version 3, 2 or 1 exactly if all attributes of that version (2 for 1) are legal, and the file has exactly these attributes, under the names and with the values of that version.", "quantifier": "every dictionary and info object, every attribute and value, all three versions", "why_tests_cant": "some hundred attributes times unboundedly many values; both directions are universal", "anchors": ["Lib/ufoLib/__init__.py:validateFontInfoVersion3ValueForAttribute", "Lib/ufoLib/__init__.py:validateFontInfoVersion2ValueForAttribute", "Lib/ufoLib/__init__.py:fontInfoAttributesVersion2ValueData", "Lib/ufoLib/__init__.py:fontInfoAttributesVersion3ValueData", "Lib/ufoLib/__init__.py:UFOReader.readInfo", "Lib/ufoLib/__init__.py:UFOWriter.writeInfo", "Lib/ufoLib/__init__.py:_convertFontInfoDataVersion1ToVersion2", "Lib/ufoLib/__init__.py:_convertFontInfoDataVersion2ToVersion3"]}
{"id": "C99", "title": "A UFO of any origin is read for what its files say", "statement": "For a UFO whose property lists are UTF-8 files of the format (written by any program, with any white space and order) or missing: the format version read is the one metainfo.plist says, if supported; lib, groups and kerning are read exactly if the files say valid ones (a missing file says an empty dictionary), with exactly the entries they say; features are the text of the file; the layers are those layercontents.plist says, in its order, exactly if it is valid; a glyph set is obtained for a layer exactly if the layer is listed (the default one by its directory) and its contents.plist says names with existing files, and has exactly these; a glyph of it is read for what its file says; layer info and font info of all versions likewise. Groups and kerning of UFO 1 and 2 are those the files say, converted, and if the new names do not clash, kerning groups (by prefix or by use) are there under their new names as well and pairs have the new names.", "quantifier": "every file system, every UFO directory, layer and glyph in it, every text of the files", "why_tests_cant": "the files are arbitrary texts from any program; every reader function on every such file", "anchors": ["Lib/ufoLib/__init__.py:UFOReader.readMetaInfo", "Lib/ufoLib/__init__.py:UFOReader.readGroups", "Lib/ufoLib/__init__.py:UFOReader.readKerning", "Lib/ufoLib/__init__.py:UFOReader.getKerningGroupConversionRenameMaps", "Lib/ufoLib/__init__.py:UFOReader.readLib", "Lib/ufoLib/__init__.py:UFOReader.readFeatures", "Lib/ufoLib/__init__.py:UFOReader.readInfo", "Lib/ufoLib/__init__.py:UFOReader._readLayerContents", "Lib/ufoLib/__init__.py:UFOReader.getLayerNames", "Lib/ufoLib/__init__.py:UFOReader.getGlyphSet", "Lib/ufoLib/__init__.py:UFOReader._getPlist", "Lib/ufoLib/glifLib.py:GlyphSet.rebuildContents", "Lib/ufoLib/glifLib.py:GlyphSet.readGlyph", "Lib/ufoLib/glifLib.py:GlyphSet.readLayerInfo"]}
{"id": "C100", "title": "The options of the property list functions do what they say", "statement": "With any options, what dumps (or totree) writes is read back by loads (or fromtree) as the value, where: items come back in the order they had when sort_keys is off; items whose keys are not strings are left out, at any depth, when skipkeys is on and are an error otherwise; bytes come back as bytes with use_builtin_types, and without it as the ASCII text they are (refused when they are not ASCII); Data objects and byte arrays come back as bytes or as Data objects as the reader asks; tuples come back as lists. readPlistFromString and writePlistToString behave like loads and dumps without built-in types. What is not such a value is refused.", "quantifier": "every value of any nesting, every combination of the options of writer and reader", "why_tests_cant": "unbounded nested values times all combinations of options", "anchors": ["Lib/ufoLib/plistlib.py:totree", "Lib/ufoLib/plistlib.py:fromtree", "Lib/ufoLib/plistlib.py:dumps", "Lib/ufoLib/plistlib.py:loads", "Lib/ufoLib/plistlib.py:Data", "Lib/ufoLib/plistlib.py:_string_or_data_element", "Lib/ufoLib/plistlib.py:_dict_element", "Lib/ufoLib/plistlib.py:end_data", "Lib/ufoLib/plistlib.py:readPlistFromString", "Lib/ufoLib/plistlib.py:writePlistToString"]}
{"id": "C101", "title": "Programs that write different parts of one UFO do not disturb each other", "statement": "Several programs have each opened a UFOWriter on the same UFO and make calls on it and on the glyph sets it gives them. If each program, run alone, makes only calls about its own entries of the root directory (the files lib.plist, groups.plist, ..., the directories images and data, the directories of its layers) and no entry belongs to two programs, then in every interleaving of their calls each program gets the same outcomes (including the same errors) and ends in the same state as if it had run alone, its entries hold the same files, entries of no program are unchanged, and so the resulting UFO does not depend on the schedule.", "quantifier": "every number of programs, every sequence of calls of each, every interleaving, every starting UFO, case-sensitive or not", "why_tests_cant": "the number of schedules is unbounded; a test runs one of them", "anchors": ["Lib/ufoLib/__init__.py:UFOWriter", "Lib/ufoLib/__init__.py:UFOWriter.getGlyphSet", "Lib/ufoLib/__init__.py:UFOWriter.writeLib", "Lib/ufoLib/__init__.py:UFOWriter.writeLayerContents", "Lib/ufoLib/__init__.py:UFOWriter.removePath", "Lib/ufoLib/__init__.py:UFOWriter.writeBytesToPath", "Lib/ufoLib/glifLib.py:GlyphSet.writeGlyph", "Lib/ufoLib/glifLib.py:GlyphSet.writeContents"]}
{"id": "C102", "title": "Programs on different parts of one UFO do not disturb each other even inside their calls", "statement": "Several programs have each opened a UFOWriter on the same UFO and keep to different entries of the root directory. Their calls on the file system (read a file, ask whether a path exists, write, remove, make, move or copy something) are interleaved in any order, also in the middle of a call of the library, and any program may stop for good at any point. At every moment each program is exactly where it would be alone after as many steps of its own, and its entries hold what they would hold then; a program that comes to the end of its calls has had the outcomes and left the files of an uninterrupted run; no program can be kept from finishing; entries of no program are unchanged.", "quantifier": "every number of programs, every sequence of calls of each, every interleaving of their file system calls, every point at which programs stop, every starting UFO, case-sensitive or not", "why_tests_cant": "races depend on the schedule; a test sees the few that happen to occur", "anchors": ["Lib/ufoLib/__init__.py:UFOWriter", "Lib/ufoLib/__init__.py:UFOWriter.getGlyphSet", "Lib/ufoLib/__init__.py:UFOWriter._writePlist", "Lib/ufoLib/__init__.py:UFOWriter.writeBytesToPath", "Lib/ufoLib/__init__.py:UFOWriter.removePath", "Lib/ufoLib/__init__.py:UFOWriter.copyFromReader", "Lib/ufoLib/glifLib.py:GlyphSet.writeGlyph", "Lib/ufoLib/glifLib.py:GlyphSet.rebuildContents", "Lib/ufoLib/glifLib.py:GlyphSet.deleteGlyph"]}
{"id": "C103", "title": "Paths and names mean what they say and keep to their place", "statement": "A path given to readBytesFromPath, writeBytesToPath, removePath and copyFromReader stands for the place its pieces lead to ('.' and empty pieces stay, '..' goes up): that is what is read, written and removed, and other files are as before; a path that leads out of the UFO raises ValueError and changes nothing. An image name stands for a file in the images directory: writing, removing and copying images changes nothing else, and readImage gives back what writeImage stored under the same name. Whatever file names a contents.plist has, also one of other origin, no history of calls on the glyph set reads or changes anything outside the directory of the layer; a layer is always in a directory of the UFO. The names chosen by default have no '/' and are not '.' or '..', and for such names everything proved for single names and lists of names holds.", "quantifier": "every string, every UFO, every contents.plist and layercontents.plist, every history of glyph set calls", "why_tests_cant": "names come from the files of other programs; a test tries a few friendly ones", "anchors": ["Lib/ufoLib/__init__.py:UFOWriter.writeBytesToPath", "Lib/ufoLib/__init__.py:UFOWriter.removePath", "Lib/ufoLib/__init__.py:UFOWriter.copyFromReader", "Lib/ufoLib/__init__.py:UFOWriter.writeImage", "Lib/ufoLib/__init__.py:UFOWriter.removeImage", "Lib/ufoLib/__init__.py:UFOWriter.copyImageFromReader", "Lib/ufoLib/__init__.py:UFOReader.readImage", "Lib/ufoLib/__init__.py:UFOReader.getGlyphSet", "Lib/ufoLib/__init__.py:UFOWriter.deleteGlyphSet", "Lib/ufoLib/glifLib.py:GlyphSet.rebuildContents", "Lib/ufoLib/glifLib.py:GlyphSet.getGLIF", "Lib/ufoLib/glifLib.py:GlyphSet.writeGlyph", "Lib/ufoLib/glifLib.py:GlyphSet.deleteGlyph", "Lib/ufoLib/validators.py:layerContentsValidator"]}
{"id": "C104", "title": "The files of a UFO stay a tree", "statement": "Opening a UFOWriter and any history of calls on it and its glyph sets, whether they return or raise, leave every file and directory of the UFO in directories that exist: nothing lies in a missing directory or in a file. This also holds at every moment in the middle of the calls, for any number of programs writing the same UFO and whichever of them have stopped. So everything below the data directory is in getDataDirectoryListing, and nothing else is.", "quantifier": "every UFO whose files are a tree, every history of calls, every schedule of the file system operations of any number of programs, every point at which they stop", "why_tests_cant": "a test looks at the UFO after a few calls, not after every history and not in the middle of calls", "anchors": ["Lib/ufoLib/__init__.py:UFOWriter", "Lib/ufoLib/__init__.py:UFOWriter.writeBytesToPath", "Lib/ufoLib/__init__.py:UFOWriter.removePath", "Lib/ufoLib/__init__.py:UFOWriter.renameGlyphSet", "Lib/ufoLib/__init__.py:UFOWriter.copyFromReader", "Lib/ufoLib/__init__.py:UFOReader.getDataDirectoryListing", "Lib/ufoLib/glifLib.py:GlyphSet"]}
{"id": "C105", "title": "Open files of a UFO hold what is written to them", "statement": "UFOWriter.getFileObjectForPath opens the file the path leads to: empty for mode w and x, as it was for a, and for x only where nothing was; missing directories are made, and no other file changes. Whatever the caller then writes, as bytes or text and in pieces of any size, and whenever the data kept back goes to the disk, the file holds at every moment what it began with followed by a part, from the start, of what was written, and once it is closed all of it; no other file changes. Opening anew, writing and closing leaves the same UFO as writeBytesToPath with the same data. UFOReader.getReadFileForPath returns None exactly where readBytesFromPath does, and the pieces read from the file make up the bytes readBytesFromPath returns; text read is the text that was written. Opening gives a file, None (only for reading what is not there) or raises.", "quantifier": "every UFO, every path string, every mode, every sequence of writes, flushes of any size, closing and changes to other files, every sequence of reads", "why_tests_cant": "a test writes one file in one piece and closes it; it does not look at the disk at every moment of every sequence of writes", "anchors": ["Lib/ufoLib/__init__.py:UFOReader.getReadFileForPath", "Lib/ufoLib/__init__.py:UFOWriter.getFileObjectForPath", "Lib/ufoLib/__init__.py:UFOWriter.writeBytesToPath", "Lib/ufoLib/__init__.py:_readBytesFromPath"]}
{"id": "C106", "title": "What a caller does to results does not change later results", "statement": "A caller may change in place the dictionaries it was given: the groups, the rename maps and the kerning a UFOReader returned, and the dictionary GlyphSet.getReverseContents returned. Later calls return and raise as if it had not: readKerning, readGroups, getKerningGroupConversionRenameMaps on the same reader, and the glyphs and files of the glyph set after any further calls.", "quantifier": "every history of calls with every change of results in between, every content of the files at every call, every conversion", "why_tests_cant": "a test does not change results in every possible way between every two calls", "anchors": ["Lib/ufoLib/__init__.py:UFOReader.readGroups", "Lib/ufoLib/__init__.py:UFOReader.readKerning", "Lib/ufoLib/__init__.py:UFOReader.getKerningGroupConversionRenameMaps", "Lib/ufoLib/__init__.py:UFOReader._upConvertKerning", "Lib/ufoLib/glifLib.py:GlyphSet.getReverseContents", "Lib/ufoLib/glifLib.py:GlyphSet.deleteGlyph"]}
{"id": "C107", "title": "Reading a glyph onto any pen and any glyph object", "statement": "readGlyph and readGlyphFromString make the same calls in the same order on every pen: what a pen raises is raised and nothing more is called, a pen that does not know the keyword identifier gets the same drawing without identifiers, a glyph object that takes only some attributes gets exactly those. When reading succeeds the pen has got whole contours and components; when it fails, the beginning of what reading without validation draws, and nothing at all if the data is no glyph of a known format.", "quantifier": "every GLIF tree, every format version, with and without validation, every pen as a state machine that may raise at any call, every set of attributes the glyph object takes", "why_tests_cant": "tests use two or three pens that never fail and glyph objects that take everything", "anchors": ["Lib/ufoLib/glifLib.py:readGlyphFromString", "Lib/ufoLib/glifLib.py:_readGlyphFromTree", "Lib/ufoLib/glifLib.py:_readGlyphFromTreeFormat1", "Lib/ufoLib/glifLib.py:_readGlyphFromTreeFormat2", "Lib/ufoLib/glifLib.py:buildOutlineFormat1", "Lib/ufoLib/glifLib.py:buildOutlineFormat2", "Lib/ufoLib/glifLib.py:_buildOutlineContourFormat2", "Lib/ufoLib/glifLib.py:_buildOutlinePointsFormat2", "Lib/ufoLib/glifLib.py:_buildOutlineComponentFormat2", "Lib/ufoLib/glifLib.py:_relaxedSetattr"]}
{"id": "C108", "title": "Reading a glyph through a filtering pen", "statement": "readGlyph with ReverseContourPointPen(pen) draws on any pen exactly the contours and components of the glyph in their order, every contour turned round and everything else unchanged; what the pen raises is raised; a contour whose reading fails in the middle does not reach the pen at all. readGlyph with GuessSmoothPointPen(pen) draws the same contours and components in their order with the same points, types, names and point identifiers.", "quantifier": "every GLIF tree of format 1 and 2, with and without validation, every pen as a state machine that may raise at any call (except TypeError), every direction test", "why_tests_cant": "tests draw complete contours on pens that never fail; the place where a reading stops and the exceptions of the pen behind are not enumerable", "anchors": ["Lib/ufoLib/pointPen.py:ReverseContourPointPen", "Lib/ufoLib/pointPen.py:GuessSmoothPointPen", "Lib/ufoLib/glifLib.py:readGlyphFromString", "Lib/ufoLib/glifLib.py:buildOutlineFormat2"]}
{"id": "C109", "title": "Drawing a glyph on any segment pen", "statement": "glyph.draw(pen), with validation: the calls the segment pen gets keep the pen protocol and draw, in order, the components and the paths that the points of the contours describe. What the pen raises is raised and it gets no further call. When the reading fails in the middle, every path that has been begun on the pen has been ended: the contour it fails in is not begun.", "quantifier": "every GLIF tree of format 1 and 2, every segment pen as a state machine that may raise at any call, every place at which the reading can fail", "why_tests_cant": "tests draw complete glyphs on pens that never fail; the places where a reading stops and the exceptions of the pen are not enumerable", "anchors": ["Lib/ufoLib/pointPen.py:BasePointToSegmentPen", "Lib/ufoLib/pointPen.py:PointToSegmentPen", "Lib/ufoLib/glifLib.py:Glyph.draw", "Lib/ufoLib/glifLib.py:readGlyphFromString", "Lib/ufoLib/glifLib.py:buildOutlineFormat2"]}
{"id": "C110", "title": "A property list or glyph file that was cut off is noticed", "statement": "Take a UFO and cut off any of its files at any byte, as an interrupted write or an incomplete copy does. Reading the format version, the info, the lib, groups, kerning (with and without conversion), layer names, the table of a layer, the layer info or a glyph, and opening the UFO for writing, either raises or gives exactly what the whole files give. Never does a reader deliver a part.", "quantifier": "every UFO, every set of files cut off, each at any byte, every flag and format version; every property list value written and every text of a glyph", "why_tests_cant": "a test cuts some files at some places; a value delivered from a part of a file needs one particular place in one particular file", "anchors": ["Lib/ufoLib/__init__.py:_getPlist", "Lib/ufoLib/__init__.py:UFOReader", "Lib/ufoLib/__init__.py:UFOWriter.__init__", "Lib/ufoLib/glifLib.py:GlyphSet.readGlyph", "Lib/ufoLib/glifLib.py:GlyphSet.rebuildContents", "Lib/ufoLib/glifLib.py:GlyphSet.readLayerInfo", "Lib/ufoLib/plistlib.py:load", "Lib/ufoLib/glifLib.py:readGlyphFromString"]}
{"id": "C111", "title": "Scanning glyph files that were cut off", "statement": "getUnicodes, getComponentReferences, getImageReferences and getCharacterMapping fetch from well-formed files what reading the glyphs gives. From files that were cut off they raise or fetch everything; so do readFeatures and readImage.", "quantifier": "every layer, every set of files cut off, each at any byte", "why_tests_cant": "the scanners hand text to a parser that calls back in the middle of it; what they deliver for every place where a text can stop is not enumerable", "anchors": ["Lib/ufoLib/glifLib.py:_fetchUnicodes", "Lib/ufoLib/glifLib.py:_fetchImageFileName", "Lib/ufoLib/glifLib.py:_fetchComponentBases", "Lib/ufoLib/glifLib.py:_BaseParser", "Lib/ufoLib/glifLib.py:GlyphSet.getUnicodes", "Lib/ufoLib/__init__.py:UFOReader.getCharacterMapping", "Lib/ufoLib/__init__.py:UFOReader.readFeatures", "Lib/ufoLib/__init__.py:UFOReader.readImage"]}
{"id": "C112", "title": "A process that stops while it writes leaves the files of some point of the session", "statement": "A writer is opened and calls are made that write or remove one file each (info, lib, groups, kerning, features, layer contents, glyphs, glyph tables, layer info, images and data files in existing directories) or obtain a glyph set. When the process is stopped at any moment, even in the middle of writing a file, the UFO is as before the session or as after some of the calls, except that one file may be cut off. Every method that reads a property list or a glyph then raises or gives what it gives at that point of the session; in particular an interrupted writeLib leaves the old lib, the new lib or an exception.", "quantifier": "every UFO, every writer, every history of such calls (successful or not), every moment, every length of the part of a file that was written", "why_tests_cant": "a test stops a process at a few moments; which moments are harmful depends on the bytes that have been written", "anchors": ["Lib/ufoLib/__init__.py:UFOWriter", "Lib/ufoLib/__init__.py:UFOWriter._writePlist", "Lib/ufoLib/__init__.py:UFOWriter.writeBytesToPath", "Lib/ufoLib/glifLib.py:GlyphSet.writeGlyph", "Lib/ufoLib/glifLib.py:GlyphSet.writeContents", "Lib/ufoLib/glifLib.py:GlyphSet.writeLayerInfo", "Lib/ufoLib/__init__.py:UFOReader"]}
{"id": "C113", "title": "An interrupted session can be repeated", "statement": "A UFO 3 that existed is opened for writing, and calls are made that write or remove one file each (info, lib, groups, kerning, features, glyphs, glyph tables, layer info, images and data files in existing directories). When the process is stopped at any moment, the UFO can be opened for writing again as before, opening it changes nothing, and making the same calls again from the first one gives exactly the files and directories of a session that was not interrupted.", "quantifier": "every UFO 3, every history of such calls (successful or not), every moment at which the process stops, every length of the part of a file that was written", "why_tests_cant": "the states that are left behind are those of every moment and of every length of a file; a test repeats a session after a few of them", "anchors": ["Lib/ufoLib/__init__.py:UFOWriter.__init__", "Lib/ufoLib/__init__.py:UFOWriter._writePlist", "Lib/ufoLib/__init__.py:UFOWriter.writeBytesToPath", "Lib/ufoLib/__init__.py:UFOWriter.removePath", "Lib/ufoLib/__init__.py:UFOWriter.copyImageFromReader", "Lib/ufoLib/glifLib.py:GlyphSet.writeGlyph", "Lib/ufoLib/glifLib.py:GlyphSet.deleteGlyph", "Lib/ufoLib/glifLib.py:GlyphSet.writeContents"]}
{"id": "C114", "title": "Editing a UFO that exists", "statement": "A UFO 3 that a reader accepts is opened for writing, the glyph set of one of its layers is obtained, glyphs are written and deleted, and the contents are written. Then a reader finds in this layer exactly the glyphs it would have found before, changed as the calls say: the text last written, no glyph that was deleted, and every other glyph with its text; and all other files of the UFO are as they were, but for metainfo.plist.", "quantifier": "every UFO 3 with any glyphs in files of any names, every layer, every history of calls on its glyph set, every file system that at most ignores case", "why_tests_cant": "the glyphs and file names that are there before are those of any program; a test edits a few small UFOs, mostly ones that the library has just written", "anchors": ["Lib/ufoLib/__init__.py:UFOWriter.__init__", "Lib/ufoLib/__init__.py:UFOWriter.getGlyphSet", "Lib/ufoLib/__init__.py:UFOWriter.writeLayerContents", "Lib/ufoLib/__init__.py:UFOReader.getGlyphSet", "Lib/ufoLib/glifLib.py:GlyphSet.__init__", "Lib/ufoLib/glifLib.py:GlyphSet.rebuildContents", "Lib/ufoLib/glifLib.py:GlyphSet.writeGlyph", "Lib/ufoLib/glifLib.py:GlyphSet.deleteGlyph", "Lib/ufoLib/glifLib.py:GlyphSet.writeContents", "Lib/ufoLib/glifLib.py:glyphNameToFileName"]}
{"id": "C115", "title": "The order of dictionaries does not change the files", "statement": "Two programs make the same calls to save a font, with equal data except that dictionaries (font info, lib, groups, kerning, layer info, the guidelines, anchors, image and lib of glyphs, at any depth) were filled in different orders. Then all files they leave are equal byte for byte, and the same calls raise.", "quantifier": "every program of any number of calls, all data, every order of the items of every dictionary at any depth, every UFO version, every file system", "why_tests_cant": "the number of orders grows as a factorial and validators, converters and writers each iterate over dictionaries; a test compares a few orders of a few small dictionaries", "anchors": ["Lib/ufoLib/__init__.py:UFOWriter.writeGroups", "Lib/ufoLib/__init__.py:UFOWriter.writeInfo", "Lib/ufoLib/__init__.py:UFOWriter.writeKerning", "Lib/ufoLib/__init__.py:UFOWriter.writeLib", "Lib/ufoLib/glifLib.py:GlyphSet.writeGlyph", "Lib/ufoLib/glifLib.py:GlyphSet.writeLayerInfo", "Lib/ufoLib/glifLib.py:_writeGlyphToBytes", "Lib/ufoLib/plistlib.py:totree", "Lib/ufoLib/plistlib.py:dump", "Lib/ufoLib/validators.py:genericDictValidator"]}
{"id": "C116", "title": "The order in which the parts of a font are saved does not matter", "statement": "Calls that write data about different entries of the root directory (info, groups, kerning, lib, features, the table of layers, images, data, the glyphs of different layers) can be made in any order: the files, the writer and the glyph sets are the same in the end, and every call returns or raises the same, whatever was called before and is called afterwards.", "quantifier": "every program of any number of calls, all data valid or not, every reordering, every state of the UFO, every file system", "why_tests_cant": "the number of orders grows as a factorial, and a hidden dependency between two calls (one that remembers something for another) shows only in one order of one pair with certain data", "anchors": ["Lib/ufoLib/__init__.py:UFOWriter.writeGroups", "Lib/ufoLib/__init__.py:UFOWriter.writeInfo", "Lib/ufoLib/__init__.py:UFOWriter.writeKerning", "Lib/ufoLib/__init__.py:UFOWriter.writeLib", "Lib/ufoLib/__init__.py:UFOWriter.writeFeatures", "Lib/ufoLib/__init__.py:UFOWriter.writeLayerContents", "Lib/ufoLib/__init__.py:UFOWriter.writeImage", "Lib/ufoLib/__init__.py:UFOWriter.writeBytesToPath", "Lib/ufoLib/glifLib.py:GlyphSet.writeGlyph", "Lib/ufoLib/glifLib.py:GlyphSet.writeContents"]}
{"id": "C117", "title": "A program that is started again after an interruption repairs the UFO", "statement": "A program opens an existing UFO, gets the glyph sets of some layers, adds and replaces glyphs, saves the tables and writes other parts of the font. It is killed anywhere and started again: it reads whatever tables the interruption left, chooses the file names anew, and if it gets its glyph sets, every file is in the end what it would have been without the interruption; no glyph gets another file name, no file is left over.", "quantifier": "every program of that kind, of any length, on any number of layers; every point at which it can stop, also in the middle of writing a file; every existing UFO", "why_tests_cant": "the file names that the second run chooses depend on which of the tables were saved before the stop and on every clash of names; one bad combination of stop and names is enough", "anchors": ["Lib/ufoLib/__init__.py:UFOWriter.__init__", "Lib/ufoLib/__init__.py:UFOWriter.getGlyphSet", "Lib/ufoLib/glifLib.py:GlyphSet.__init__", "Lib/ufoLib/glifLib.py:GlyphSet.rebuildContents", "Lib/ufoLib/glifLib.py:GlyphSet.writeGlyph", "Lib/ufoLib/glifLib.py:GlyphSet.writeContents", "Lib/ufoLib/glifLib.py:GlyphSet.writeLayerInfo", "Lib/ufoLib/filenames.py:userNameToFileName"]}
{"id": "C118", "title": "readPlist and writePlist close what they open and leave the rest alone", "statement": "Given a path, readPlist and writePlist have closed the file they opened when they return or raise; given an open file, they leave it open, write behind what was written to it and read from where it is. No other open file and no other path is touched, readPlist changes nothing on the disk, and a value that was written is read back. A value that is refused leaves what was there as it was.", "quantifier": "every value, every path and open file in any state, every content of the disk, every set of open files, whether the call returns or raises", "why_tests_cant": "leaks and half-written files show only on the paths that raise, and there is one for every malformed value or file", "anchors": ["Lib/ufoLib/plistlib.py:readPlist", "Lib/ufoLib/plistlib.py:writePlist", "Lib/ufoLib/plistlib.py:load", "Lib/ufoLib/plistlib.py:dump"]}
{"id": "C119", "title": "Modification times tell which files have changed", "statement": "getFileModificationTime is None exactly if there is nothing at the path. On a file system whose clock goes on between any two changes, a path that has the same modification time as before has the same contents as before, whatever programs did in between; a path whose contents have changed has a later time. Calls that are not about a file keep its time. writeGlyph of a glyph that is there, in a layer that existed, changes the time that getGLIFModificationTime gives for it exactly if the data differ, and the times of all other glyphs stay. So a program that reads a glyph again only when the time has changed always has the current data.", "quantifier": "every file system and clock, every sequence of changes by any programs, every history of calls of a writer and its glyph sets, every glyph", "why_tests_cant": "whether a change keeps the time of a file depends on the whole history of writes; tests compare the times of a few files once", "anchors": ["Lib/ufoLib/__init__.py:_getFileModificationTime", "Lib/ufoLib/glifLib.py:GlyphSet.getGLIFModificationTime", "Lib/ufoLib/glifLib.py:GlyphSet.writeGlyph", "Lib/ufoLib/glifLib.py:_writeGlyphToBytes"]}
{"id": "C120", "title": "A with statement closes the writer, hides no exception and saves only when the block succeeds", "statement": "with UFOWriter(path) as writer: the writer is closed in the end however the block is left. The statement raises what the first failing call of the block, or the program itself, raises, and nothing if the block succeeds; no call after the failing one is made. A reader then finds exactly the files that the calls made have left, with the version of the writer. When the block succeeds this is the same as making the calls and closing the writer. When the block raises, an existing archive stays as it was and a new one is not made.", "quantifier": "every block of calls, every call that can fail or exception of the program, packages and archives, new and existing UFOs", "why_tests_cant": "the exception can come after any call of any block; tests use with statements whose block succeeds", "anchors": ["Lib/ufoLib/__init__.py:UFOWriter.__enter__", "Lib/ufoLib/__init__.py:UFOWriter.__exit__", "Lib/ufoLib/__init__.py:UFOWriter.close"]}
{"id": "C121", "title": "A file system object that a program hands over stays open until the program closes it", "statement": "UFOReader(filesystem), UFOWriter(filesystem) and GlyphSet(filesystem) take a file system object that the program has made. As long as the program does not close it, it stays open, whatever readers, writers and glyph sets are opened, used and closed on it, whether they succeed or raise, and its files are what the writers leave. A closed object is refused with UFOLibError (GlifLibError for glyph sets) and nothing changes. A writer for an object does the same as a writer for the path of a directory with the same files, if there is a metainfo.plist; if there is none the object is taken for a new UFO, and the path is refused.", "quantifier": "every file system object, every sequence of readers, writers and glyph sets on it, all calls on the writers, all format versions", "why_tests_cant": "the branch that closes the file system is only reached with particular contents of metainfo.plist, and the effect shows only when the object is used again", "anchors": ["Lib/ufoLib/__init__.py:UFOReader.__init__", "Lib/ufoLib/__init__.py:UFOWriter.__init__", "Lib/ufoLib/__init__.py:UFOWriter.close", "Lib/ufoLib/__init__.py:UFOReader.close", "Lib/ufoLib/glifLib.py:GlyphSet.__init__"]}
{"id": "C122", "title": "No failure of the file system goes unnoticed", "statement": "A file system can fail each time it is used: no space left, no permission, a lost connection, an object that was closed. If anything fails during a call on a writer or on a glyph set it gave out, at whatever point and whatever the failing operation leaves behind, the call raises. So a program whose calls all return normally has left exactly the files that it leaves on a file system that never fails. If the operations that fail do harm only below the entries of the root directory that they are about, all other entries keep their files. After the file system object was closed, only calls that use no files return normally.", "quantifier": "every format version, every state of the files, every call on the writer and on glyph sets, every sequence of calls, every combination of operations that fail, everything that a failing operation can leave behind", "why_tests_cant": "tests use file systems that work; the number of points at which something can fail, and of what can be left behind, is unbounded", "anchors": ["Lib/ufoLib/__init__.py:UFOWriter.writeBytesToPath", "Lib/ufoLib/__init__.py:UFOWriter._writePlist", "Lib/ufoLib/__init__.py:UFOWriter.removePath", "Lib/ufoLib/__init__.py:UFOWriter.getGlyphSet", "Lib/ufoLib/__init__.py:UFOWriter.renameGlyphSet", "Lib/ufoLib/__init__.py:UFOWriter.deleteGlyphSet", "Lib/ufoLib/__init__.py:UFOWriter.copyFromReader", "Lib/ufoLib/glifLib.py:GlyphSet.writeGlyph", "Lib/ufoLib/glifLib.py:GlyphSet.deleteGlyph", "Lib/ufoLib/glifLib.py:GlyphSet.writeContents"]}
{"id": "C123", "title": "A reader or writer that meets a failure of the file system says so", "statement": "If the file system fails at any point while something is read - format version, info, lib, groups, kerning, features, names of layers, glyph sets, character mapping, data files, images, glyphs, layer info, the tables made from glyphs - the method raises: failures are never taken for a missing file, an empty table or a default. What a method returns is what the files hold. Reading leaves the files alone, whatever fails. Making a writer succeeds only if nothing failed, and then gives the writer and the files that it gives on a file system that never fails. So a program that opens a writer, makes calls that all return normally and reads something has read what it reads when nothing can fail.", "quantifier": "every state of the files, every reading method with every argument, every format version, every combination of operations that fail", "why_tests_cant": "tests use file systems that work; the points at which something can fail are unbounded", "anchors": ["Lib/ufoLib/__init__.py:_getPlist", "Lib/ufoLib/__init__.py:UFOReader.readInfo", "Lib/ufoLib/__init__.py:UFOReader.readLib", "Lib/ufoLib/__init__.py:UFOReader.readGroups", "Lib/ufoLib/__init__.py:UFOReader.readKerning", "Lib/ufoLib/__init__.py:UFOReader.readFeatures", "Lib/ufoLib/__init__.py:UFOReader.getLayerNames", "Lib/ufoLib/__init__.py:UFOReader.getGlyphSet", "Lib/ufoLib/__init__.py:UFOReader.getCharacterMapping", "Lib/ufoLib/__init__.py:UFOReader.readBytesFromPath", "Lib/ufoLib/__init__.py:UFOReader.readImage", "Lib/ufoLib/__init__.py:UFOWriter.__init__", "Lib/ufoLib/glifLib.py:GlyphSet.getGLIF", "Lib/ufoLib/glifLib.py:GlyphSet.readGlyph", "Lib/ufoLib/glifLib.py:GlyphSet.readLayerInfo", "Lib/ufoLib/glifLib.py:GlyphSet.getUnicodes"]}
{"id": "C124", "title": "Reading a UFO while another program writes it", "statement": "Every reading method gives what it gives at one of the points of the other program's session, or raises. Methods that read one file do: their result is that of the moment at which the file was read, and if the file was being written at this moment and the result is a value, it is that of a point of the session. Names of layers, images and each entry of the tables made from glyphs are those of one moment. A glyph set has its directory and its table from moments that can differ. Groups and kerning of UFO 1 and 2 are converted from the groups of one moment and the kerning of a later one, and so the full claim is false: readKerning can return kerning that the UFO has at no point of the session.", "quantifier": "every session of a writer, every state of the files at each moment at which the reader uses them, every reading method", "why_tests_cant": "the interleavings of two programs are unbounded and cannot be controlled by a test", "anchors": ["Lib/ufoLib/__init__.py:UFOReader._upConvertKerning", "Lib/ufoLib/__init__.py:UFOReader.readLib", "Lib/ufoLib/__init__.py:UFOReader.readInfo", "Lib/ufoLib/__init__.py:UFOReader.readGroups", "Lib/ufoLib/__init__.py:UFOReader.readKerning", "Lib/ufoLib/__init__.py:UFOReader.getLayerNames", "Lib/ufoLib/__init__.py:UFOReader.getGlyphSet", "Lib/ufoLib/__init__.py:UFOReader.readImage", "Lib/ufoLib/glifLib.py:GlyphSet.readGlyph", "Lib/ufoLib/glifLib.py:GlyphSet.getUnicodes"]}
{"id": "C125", "title": "Renaming a layer loses nothing, whenever it stops", "statement": "renameGlyphSet moves the directory of a layer file by file. If the process stops (or the file system raises) at any moment of this, also while a file is being written, then all files of the layer are still in its old directory or all of them are in its new one, nothing else has changed, and the files are a tree. The program can then be started again: the UFO opens as before and renaming the layer again leaves exactly the files and the writer of a call that was not interrupted.", "quantifier": "every UFO, every layer with any tree of files, every order in which the files are copied and removed, every moment", "why_tests_cant": "the moments at which a process can stop, and the orders of the files, cannot be controlled by a test", "anchors": ["Lib/ufoLib/__init__.py:UFOWriter.renameGlyphSet", "Lib/ufoLib/__init__.py:UFOWriter.__init__", "Lib/ufoLib/__init__.py:UFOWriter._readLayerContents"]}
{"id": "C126", "title": "Closing an archive is all or nothing", "statement": "UFOWriter.close on an archive replaces it as a whole: if the process stops at any moment of close, or close raises because the file system fails, then a reader afterwards finds the font as it was before the writer was opened or as the writer left it, never a mixture or a part. When close raised, calling it again completes it. Closing a package changes nothing.", "quantifier": "every archive, every history of calls on the writer, every moment of close at which the process stops, every set of entries copied before a failure and every number of failing attempts", "why_tests_cant": "Tests close on a healthy disk and are not stopped half way; the states between the first and the last byte of the archive are never seen.", "anchors": ["Lib/ufoLib/__init__.py:UFOWriter.close", "Lib/ufoLib/__init__.py:UFOWriter.__init__", "Lib/ufoLib/__init__.py:_sniffFileStructure"]}
{"id": "C127", "title": "The listing of the data directory is complete", "statement": "UFOReader.getDataDirectoryListing returns every file below the data directory, at any depth, each once and nothing else. If other programs change the UFO while it looks, every path returned was a file at some moment, and every file that was there all the time is returned; if the file system fails, it raises.", "quantifier": "every tree of files, every sequence of changes by other programs between the looks at the directories, every point at which looking fails", "why_tests_cant": "Tests list a directory nobody else works on; the order of scanning and removing is up to the operating system.", "anchors": ["Lib/ufoLib/__init__.py:UFOReader.getDataDirectoryListing"]}
{"id": "C128", "title": "Programs that work on different glyphs of a layer do not lose each other's changes", "statement": "If several programs have opened the same layer and each writes, adds and deletes glyphs that no other program touches, then in every order of their calls each gets the outcomes it would get alone, all changes are there afterwards, the layer can be opened, and what no program touched is as before.", "quantifier": "every number of programs, every layer, every order of their calls", "why_tests_cant": "Whether changes get lost depends on the order of calls of several programs; tests use one glyph set at a time.", "anchors": ["Lib/ufoLib/glifLib.py:GlyphSet.writeGlyph", "Lib/ufoLib/glifLib.py:GlyphSet.deleteGlyph", "Lib/ufoLib/glifLib.py:GlyphSet.writeContents", "Lib/ufoLib/glifLib.py:GlyphSet.rebuildContents"]}
{"id": "C129", "title": "Copying inside one UFO ends and copies everything", "statement": "Copying a file or directory of a UFO to another place of the same UFO ends; afterwards the destination has exactly what the source had, and the rest of the UFO is as before.", "quantifier": "every UFO, every source, every destination that does not exist yet", "why_tests_cant": "Whether the copy meets its own output depends on where the destination lies and on how deep the directories are; tests copy between two UFOs.", "anchors": ["Lib/ufoLib/__init__.py:UFOWriter.copyFromReader"]}
{"id": "C130", "title": "A glyph object can be kept and drawn at any time", "statement": "An object obtained with glyphSet[name] can be kept while the glyph set changes: whenever it is drawn, the calls on the pen and the attributes of the object are those of the glyph as it is then, and drawing raises exactly what reading the glyph raises (KeyError once it was deleted).", "quantifier": "every glyph set, every sequence of changes and drawings", "why_tests_cant": "Stale data shows only when an object is drawn more than once and the glyph has lost something in between; tests draw each object once.", "anchors": ["Lib/ufoLib/glifLib.py:Glyph", "Lib/ufoLib/glifLib.py:GlyphSet.__getitem__", "Lib/ufoLib/glifLib.py:_relaxedSetattr"]}
{"id": "C131", "title": "Writing a glyph object to another glyph set copies the glyph", "statement": "For an object obtained with src[name], dst.writeGlyph(newName, object, object.drawPoints) writes a glyph that is read as the same glyph, with the same outline and the same attributes.", "quantifier": "every glyph of every glyph set that can be read, every new name", "why_tests_cant": "The object changes while it is written; which attributes come out depends on the order inside of the writer, which no single value shows.", "anchors": ["Lib/ufoLib/glifLib.py:Glyph.drawPoints", "Lib/ufoLib/glifLib.py:_writeGlyphToBytes", "Lib/ufoLib/glifLib.py:GlyphSet.writeGlyph"]}
{"id": "C132", "title": "Reading into an object is all or nothing", "statement": "readInfo, readLayerInfo and readGlyph put what they read into an object of the caller. If they raise, the object is as before; otherwise it has the attributes that the file has, and its other attributes are as before. What readGlyph raises or draws does not depend on the object.", "quantifier": "every file, every object with whatever attributes, also one that refuses to have some attributes set", "why_tests_cant": "A half-filled object needs a fault at a certain place of the file or an object that refuses a certain attribute; tests check that an exception is raised, not what it leaves.", "anchors": ["Lib/ufoLib/__init__.py:UFOReader.readInfo", "Lib/ufoLib/glifLib.py:GlyphSet.readLayerInfo", "Lib/ufoLib/glifLib.py:GlyphSet.readGlyph", "Lib/ufoLib/glifLib.py:_relaxedSetattr"]}
{"id": "C133", "title": "An info object carries the info of one UFO to another", "statement": "readInfo into an object and writeInfo of that object to a UFO 3 leave in the UFO exactly the info that was read, whatever the session writes besides. An object that is read into several times has each attribute from the last UFO that has it.", "quantifier": "every UFO that can be read, every object, every number of UFOs read into it, every session before and after", "why_tests_cant": "What an object keeps from an earlier font matters only for certain pairs of fonts; tests use new objects.", "anchors": ["Lib/ufoLib/__init__.py:UFOReader.readInfo", "Lib/ufoLib/__init__.py:UFOWriter.writeInfo"]}
{"id": "C134", "title": "Files opened for updating behave as arrays of bytes", "statement": "UFOWriter.getFileObjectForPath with the modes r+b, w+b, a+b and x+b returns a file with which the caller can seek, read, write and truncate: every call returns or raises what it would with an array of bytes and a position, so bytes that were written are read back at once, bytes beyond the end are preceded by zeros, and with a everything is written at the end. At every moment the file in the UFO lacks at most the last bytes written, and once it is closed it is the array. No other file changes.", "quantifier": "every UFO, every path string, every mode, every sequence of seeks, reads, writes, truncations, flushes of any size and changes to other files", "why_tests_cant": "a test does a few operations on one small file, and cannot choose when the buffer is written", "anchors": ["Lib/ufoLib/__init__.py:UFOWriter.getFileObjectForPath"]}
{"id": "C135", "title": "Layer info can be carried to another layer", "statement": "GlyphSet.readLayerInfo of one layer into an object, followed by GlyphSet.writeLayerInfo of that object in another layer of any UFO 3, raises nothing, and afterwards the second layer has the color and the lib of the first, and no others, whatever glyphs are written and deleted there in between.", "quantifier": "every two glyph sets, every object, every layer info, every sequence of later calls", "why_tests_cant": "a test carries one layer info to a new layer with a new object", "anchors": ["Lib/ufoLib/glifLib.py:GlyphSet.readLayerInfo", "Lib/ufoLib/glifLib.py:GlyphSet.writeLayerInfo"]}
{"id": "C136", "title": "Text files can be read in pieces and by lines", "statement": "A file of a UFO that UFOReader.getReadFileForPath opens with encoding utf-8 gives its text: read(n) returns the next n characters (fewer at the end), read() all that is left, readline the next line with its line end (LF, CR or CR LF, unchanged), in any mixture, however the file is divided into blocks, also when a block ends within a character or between CR and LF. All pieces together are the text; text that was written in pieces with UFOWriter.getFileObjectForPath is read back. For a file that is not UTF-8 UnicodeDecodeError is raised before any call comes to the end.", "quantifier": "every text, every sequence of calls, every division of the file into blocks, every file that is not UTF-8", "why_tests_cant": "a test reads small files that fit into one block", "anchors": ["Lib/ufoLib/__init__.py:UFOReader.getReadFileForPath"]}
