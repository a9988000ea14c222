"""Source of /verif/properties.jsonl: run `python3 tools/props.py` from /verif."""
import json, os
P = []
def p(title, statement, quantifier, why, anchors):
    P.append(dict(id="C%02d" % (len(P)+1), title=title, statement=statement, quantifier=quantifier,
                  why_tests_cant=why, anchors=anchors))
F="Lib/ufoLib/filenames.py"; K="Lib/ufoLib/kerning.py"; CV="Lib/ufoLib/converters.py"; I="Lib/ufoLib/__init__.py"
PP="Lib/ufoLib/pointPen.py"; PL="Lib/ufoLib/plistlib.py"; ET="Lib/ufoLib/etree.py"; V="Lib/ufoLib/validators.py"; G="Lib/ufoLib/glifLib.py"

# ---- file names
p("A generated file name never clashes with an existing one",
  "Whenever userNameToFileName(userName, existing, prefix, suffix) returns a name, the lower-cased form of that name is not an element of `existing`.",
  "every user name, every collection of existing names, every prefix and suffix, every lower-casing function",
  "the clash fallbacks loop over counters; tests sample three clash situations, the claim is over every possible set of existing names including adversarial ones",
  [F+":userNameToFileName", F+":handleClash1", F+":handleClash2"])
p("A generated file name is at most 255 characters",
  "Whenever userNameToFileName returns a name and prefix and suffix leave room for one, the name has at most 255 characters.",
  "every user name of any length and content, every existing set, every prefix and suffix with len(prefix)+len(suffix)+15 <= 255",
  "names are unbounded; only a pathological combination (many reserved components) breaks the clip, which sampling is unlikely to hit",
  [F+":userNameToFileName", F+":handleClash1"])
p("A generated file name contains no illegal character and no leading period",
  "The part of the returned name between prefix and suffix contains no character that is illegal in file names (quote * + / : < > ? [ \\ ] | NUL, control characters 1-31, DEL), and when no prefix is given the name does not start with a period.",
  "every user name, existing set, prefix and suffix",
  "Unicode user names are an infinite domain and the clash fallbacks build names by a different route",
  [F+":userNameToFileName", F+":illegalCharacters"])
p("No dot-separated component of a generated file name is a reserved device name",
  "When prefix is empty or ends with a period and suffix is empty or starts with a period, no dot-separated component of the generated part of the returned name is (case-insensitively) one of CON PRN AUX CLOCK$ NUL A:-Z: COM1-4 LPT1-3, also after clipping and after clash handling.",
  "every user name, existing set, prefix and suffix of that shape",
  "clipping and clash suffixing happen around the reserved-name check; their interaction is over unbounded names",
  [F+":userNameToFileName", F+":reservedFileNames", F+":handleClash1", F+":handleClash2"])
p("File name generation always succeeds for a realistic number of existing names",
  "For a non-empty user name and an existing collection with fewer than 999999999999998 entries, userNameToFileName returns a name (it never raises and the clash loop stops after at most len(existing)+1 attempts); the empty user name without a prefix raises IndexError.",
  "every non-empty user name, prefix, suffix, and every existing collection below the bound",
  "termination of a search loop against an arbitrary set cannot be established by running it on samples",
  [F+":handleClash1", F+":handleClash2"])
p("Names assigned one after another are pairwise distinct ignoring case",
  "If names are generated one after another, each time adding the lower-cased result to `existing`, all generated names are pairwise different even when compared case-insensitively.",
  "every sequence of user names of any length, every prefix and suffix",
  "quantifies over histories of calls of unbounded length",
  [F+":userNameToFileName", I+":UFOWriter._getGlyphSetFormatVersion3"])
# ---- kerning
p("Kerning lookup uses the documented precedence",
  "lookupKerningValue returns the value of the first of (glyph,glyph), (glyph,group2), (group1,glyph), (group1,group2) present in the kerning, where group1/group2 are the public.kern1./public.kern2. groups of the pair members (or the members themselves when they already are such group names), and the fallback when none is present.",
  "every pair, kerning dictionary, groups dictionary and fallback value",
  "the combinations of present and absent pairs over arbitrary dictionaries are unbounded",
  [K+":lookupKerningValue"])
p("Kerning lookup does not depend on group order or on precomputed maps",
  "For groups accepted by groupsValidator, lookupKerningValue gives the same answer for every iteration order of the groups dictionary, and passing precomputed glyph-to-group maps built from the same groups gives that answer as well.",
  "every valid groups dictionary, every permutation of it, every kerning and pair",
  "order independence ranges over all permutations of all dictionaries",
  [K+":lookupKerningValue", V+":groupsValidator"])
p("groupsValidator accepts exactly the well-formed groups",
  "groupsValidator accepts a value iff it is a dictionary whose keys are non-empty strings and values lists or tuples, no public.kern1./public.kern2. key is just the prefix, and within the kern1 groups (and likewise within the kern2 groups) all members are strings and no member occurs twice, in one group or in two.",
  "every Python value",
  "the accepted set is infinite; tests give a handful of dictionaries",
  [V+":groupsValidator"])
p("Kerning up-conversion keeps the original groups and adds faithful copies",
  "After converting UFO 1/2 kerning to UFO 3, every original group is still present with its members; every group in the rename maps is present under its new name with the same members as under the old name; and no other group appears.",
  "every groups and kerning dictionary, every iteration order of the intermediate sets",
  "dictionaries are unbounded and Python set order is nondeterministic",
  [CV+":convertUFO1OrUFO2KerningToUFO3Kerning"])
p("Kerning up-conversion loses no kerning pair",
  "Every kerning pair of the UFO 1/2 data is present, with its value, in the converted kerning under the renamed first and second names; in particular two different groups are never renamed to the same name on one side.",
  "every groups and kerning dictionary, every iteration order",
  "a collision needs two group names that agree after prefix removal; sampled tests do not contain one",
  [CV+":convertUFO1OrUFO2KerningToUFO3Kerning", CV+":makeUniqueGroupName"])
p("Kerning up-conversion does not depend on set iteration order",
  "The rename maps, the converted kerning and the converted groups are the same (as dictionaries) for every order in which the intermediate sets of referenced groups are iterated.",
  "every groups and kerning dictionary and every pair of iteration orders",
  "string hashing is randomised per process, so the order changes between runs; a test sees one order",
  [CV+":convertUFO1OrUFO2KerningToUFO3Kerning", CV+":findKnownKerningGroups"])
p("Renamed kerning groups have the right prefix and a fresh name, and exactly the kerning groups are renamed",
  "Up-conversion renames on side 1 exactly the groups that start with @MMK_L_ or that are used as the first member of a kerning pair without already starting with public.kern1. (side 2: @MMK_R_, second member, public.kern2.); each new name starts with that side's prefix and is not a name of an existing group; the search for a fresh name terminates.",
  "every groups and kerning dictionary, every iteration order",
  "termination and freshness range over arbitrary existing names",
  [CV+":convertUFO1OrUFO2KerningToUFO3Kerning", CV+":findKnownKerningGroups", CV+":makeUniqueGroupName"])
p("Writing back up-converted kerning with the rename maps restores the original UFO 1/2 data",
  "Reading groups and kerning from a UFO 1/2, passing the reader's rename maps to the writer's setKerningGroupConversionRenameMaps and writing both back produces the groups and kerning that were read.",
  "every UFO 1/2 groups and kerning dictionary",
  "a round trip over unbounded dictionaries with name clashes",
  [CV+":convertUFO1OrUFO2KerningToUFO3Kerning", I+":UFOWriter.setKerningGroupConversionRenameMaps", I+":UFOWriter.writeGroups", I+":UFOWriter.writeKerning", I+":UFOReader.readKerning"])
p("A reader never mixes two versions of groups.plist and kerning.plist",
  "For a UFO 1/2 whose kerning converts without an exception (failures are C16's subject), if the files change on disk between calls, every readGroups/readKerning call of one UFOReader either returns the data obtained from the first snapshot it converted, or raises; it raises whenever the file contents differ from that snapshot.",
  "every interleaving of file modifications and reader calls",
  "quantifies over histories and schedules of external modifications",
  [I+":UFOReader._upConvertKerning", I+":UFOReader.readGroups", I+":UFOReader.readKerning"])
p("A failed kerning conversion is not later reported as success",
  "If converting the kerning of a UFO 1/2 raises an exception, later calls on the same unchanged files and the same reader raise as well instead of returning data.",
  "every file content and every sequence of reader calls",
  "needs histories with an exception in the middle",
  [I+":UFOReader._upConvertKerning"])
# ---- pens
p("Reversing a closed contour twice is the identity and keeps the first point first",
  "Drawing a closed contour through ReverseContourPointPen keeps the first point first, visits the points in the opposite cyclic order (output N is input -N), keeps off-curve points off-curve, and doing it twice gives back exactly the original points, types, smooth flags, names and kwargs.",
  "every closed contour of any length, with any mixture of on- and off-curve points",
  "contours are unbounded lists; types shift cyclically between points",
  [PP+":ReverseContourPointPen"])
p("Reversing an open contour gives an open contour",
  "For a contour that starts with a move point, ReverseContourPointPen emits a contour that starts with a move point and drops exactly the trailing off-curve points; reversing twice is the identity when there are no trailing off-curve points and no other move points.",
  "every open contour of any length",
  "unbounded lists with arbitrary trailing off-curve runs",
  [PP+":ReverseContourPointPen"])
p("Segment conversion neither drops nor invents points",
  "For a contour of two or more points BasePointToSegmentPen delivers segments whose points, concatenated, are exactly the contour's points: in order up to the last on-curve point for an open contour (the format forbids off-curve points after it), as the rotation that ends with the first on-curve point for a closed one, followed by an implied None point when there is no on-curve point; every segment ends with its only on-curve point; a move segment appears only first, and only for an open contour. A contour of one point is delivered as a single move segment.",
  "every contour of any length",
  "unbounded point lists, many shapes",
  [PP+":BasePointToSegmentPen.endPath"])
p("Point pen to segment pen and back preserves a contour",
  "Drawing a contour through PointToSegmentPen into SegmentToPointPen gives back the same points and segment types (rotated so that the first on-curve point is first).",
  "every contour of at least two points, both values of outputImpliedClosingLine",
  "coinciding points break the implied closing line only for particular geometry",
  [PP+":PointToSegmentPen", PP+":SegmentToPointPen"])
p("Guessing smoothness changes nothing but smooth flags",
  "GuessSmoothPointPen passes on the same contours with the same points, segment types, names and kwargs in the same order; only on-curve points with an off-curve neighbour can become smooth.",
  "every sequence of contours and components, every smoothness decision",
  "unbounded contours and a floating point decision",
  [PP+":GuessSmoothPointPen"])
# ---- plist
p("Property lists survive conversion to a tree and back",
  "For every value made of dictionaries with string keys, lists, strings, booleans, integers in [-2^63, 2^64), floats, dates and bytes, plistlib.fromtree(plistlib.totree(v)) equals v.",
  "every such value, of any nesting depth and size",
  "recursive data of unbounded depth",
  [PL+":totree", PL+":fromtree", PL+":PlistTarget"])
p("plist <data> survives base64 line wrapping at every indent level",
  "Decoding the base64 text produced by plistlib for a byte string gives back the byte string, for every line length and indentation used.",
  "every byte string, line length and indent level",
  "length modulo 3, chunk boundaries and indent interact",
  [PL+":_encode_base64", PL+":end_data"])
p("plist dates survive the string format",
  "_date_from_string(_date_to_string(d)) equals d for every date with whole seconds and year 1-9999.",
  "every such date",
  "the space of dates is too large to enumerate in tests and padding matters",
  [PL+":_date_to_string", PL+":_date_from_string"])
p("Values a property list cannot represent are refused, not altered",
  "totree raises for a dictionary with a non-string key, for None and for an integer outside [-2^63, 2^64), anywhere inside the value; it succeeds on every other supported value.",
  "every Python value built from supported and unsupported pieces, of any depth",
  "the offending piece can be at any depth",
  [PL+":_make_element", PL+":_dict_element", PL+":_integer_element"])
p("Written property lists do not depend on dictionary order",
  "Two dictionaries that are equal (same items inserted in a different order, at any depth) produce the same tree, so rewriting equal data does not touch the file.",
  "every value and every reordering of its dictionaries at every depth",
  "ranges over all permutations at all depths",
  [PL+":_dict_element", I+":_writePlist"])
# ---- XML
p("Text survives XML escaping",
  "Escaping character data with the built-in serializer and then reading it with an XML 1.0 parser gives back the text.",
  "every string of characters the serializer accepts",
  "Unicode strings are an infinite domain; line-end normalisation affects a single control character",
  [ET+":_escape_cdata", ET+":_tounicode"])
p("Attribute values survive XML escaping",
  "Escaping an attribute value with the built-in serializer and then reading it with an XML 1.0 parser gives back the value.",
  "every string of characters the serializer accepts",
  "attribute-value normalisation affects only some whitespace characters",
  [ET+":_escape_attrib"])
p("A serialized element tree parses back to the same tree",
  "Serializing an element tree with the built-in serializer (with or without pretty printing) and parsing the result gives the same elements, attributes and leaf texts.",
  "every element tree of any depth and width",
  "recursive structure with arbitrary text everywhere",
  [ET+":_serialize_xml", ET+":_indent"])
# ---- validators
p("identifierValidator accepts exactly the legal identifiers",
  "identifierValidator(v) is True iff v is a string of 1 to 100 characters, each between U+0020 and U+007E.",
  "every Python value",
  "infinite domain",
  [V+":identifierValidator"])
p("Accepted guideline and anchor lists have unique legal identifiers and legal geometry",
  "guidelinesValidator(v, ids) / anchorsValidator(v, ids) accept only lists of dictionaries in which the identifiers are legal, pairwise different and not in ids; every accepted guideline has x or y, and an angle (between 0 and 360) exactly when it has both; every accepted anchor has x and y.",
  "every Python value and every initial identifier set",
  "lists of unbounded length with aliasing identifiers",
  [V+":guidelinesValidator", V+":guidelineValidator", V+":anchorsValidator", V+":anchorValidator"])
p("Accepted colors are four numbers between 0 and 1",
  "colorValidator(s) is True only if s consists of four comma separated numbers, each at least 0 and at most 1.",
  "every string",
  "the number grammar has corner cases (nan, infinities, signs, underscores)",
  [V+":colorValidator"])
p("openTypeHeadCreated accepts only YYYY/MM/DD HH:MM:SS dates",
  "fontInfoOpenTypeHeadCreatedValidator accepts only strings of the form dddd/dd/dd dd:dd:dd with digits only, which name an existing calendar day and time, and accepts all of those with year >= 1.",
  "every string",
  "19 character strings over Unicode cannot be enumerated",
  [V+":fontInfoOpenTypeHeadCreatedValidator"])
p("layerContentsValidator accepts exactly the consistent layer tables",
  "layerContentsValidator accepts iff the value is a list of [name, directory] string pairs with non-empty pairwise different names and pairwise different existing directories that are 'glyphs' or start with 'glyphs.', 'glyphs' is among them, and public.default is not used for another directory.",
  "every Python value and every file system state",
  "unbounded lists against arbitrary file systems",
  [V+":layerContentsValidator"])
p("kerning, lib and font-info value validators accept exactly their documented value sets",
  "kerningValidator, fontLibValidator, glyphLibValidator and the scalar/list font info validators (weight class, width class, panose, family class, blues, stems, character set, style map name, gasp ranges) accept exactly the values described by their documented ranges.",
  "every Python value",
  "infinite domains with bool/int/float subtleties",
  [V+":kerningValidator", V+":fontLibValidator", V+":glyphLibValidator", V+":fontInfoOpenTypeOS2FamilyClassValidator", V+":fontInfoOpenTypeGaspRangeRecordsValidator"])
p("Validators return a verdict and never raise",
  "Every font info validator, called with any property list value, returns True or False and does not raise.",
  "every property list value, every validator in the UFO 3 font info table",
  "the raising inputs are isolated points of an infinite domain",
  [V+":fontInfoWOFFMetadataLicenseValidator", V+":fontInfoWOFFMetadataExtensionValidator", V+":genericIntListValidator"])
# ---- font info
p("Validated UFO 2 info survives conversion to UFO 1 and back",
  "Every attribute that exists in UFO 1 and whose value passes the UFO 2 validator is converted to a UFO 1 value (never to None) and converts back to the same attribute and value.",
  "every attribute and every accepted value",
  "value domains are infinite for most attributes",
  [I+":convertFontInfoValueForAttributeFromVersion2ToVersion1", I+":convertFontInfoValueForAttributeFromVersion1ToVersion2"])
p("Every valid UFO 2 font info can be read",
  "If every attribute of a UFO 2 fontinfo.plist passes the UFO 2 validator, then UFOReader.readInfo accepts it: after conversion every value passes the UFO 3 validator.",
  "every UFO 2 font info dictionary",
  "only particular numeric values (integral floats, negative numbers) fail",
  [I+":convertFontInfoValueForAttributeFromVersion2ToVersion3", I+":_convertFontInfoDataVersion2ToVersion3", I+":UFOReader.readInfo"])
p("Converting UFO 2 info to UFO 3 is idempotent and changes only the listed attributes",
  "Converting a value twice gives the same result as converting it once, attribute names are unchanged, attributes outside the documented lists keep their value, a converted number differs from the original by rounding to the nearest integer and/or taking the absolute value.",
  "every attribute and every number",
  "infinite numeric domain",
  [I+":convertFontInfoValueForAttributeFromVersion2ToVersion3"])
p("Font info written by UFOWriter is read back unchanged",
  "For format version 3, after writeInfo succeeds with validation, readInfo sets exactly the known non-None attributes of the written object, with equal values; for version 2 exactly those that exist in version 2.",
  "every info object",
  "ranges over every subset of about 120 attributes with arbitrary values",
  [I+":UFOWriter.writeInfo", I+":UFOReader.readInfo"])
# ---- GLIF
p("Identifiers in a written glyph are legal and unique",
  "When a glyph is written in format 2 with validation, the identifiers of all its guidelines, anchors, contours, points and components are legal and pairwise different, whatever sequence of pen calls the drawing function makes; otherwise GlifLibError is raised.",
  "every glyph object and every sequence of pen calls",
  "identifier clashes can be between any two of unboundedly many objects of five kinds",
  [G+":GLIFPointPen", G+":_writeGuidelines", G+":_writeAnchors", G+":_writeGlyphToBytes"])
p("Identifiers in an accepted glyph are unique",
  "When a format 2 GLIF is read with validation and a pen, no identifier is delivered twice among contours, points, components, guidelines and anchors, and all are legal.",
  "every element tree",
  "unbounded documents",
  [G+":_readGlyphFromTreeFormat2", G+":buildOutlineFormat2"])
p("A contour accepted by the reader is well formed",
  "With validation, every contour delivered to a pen has move only as first point, no off-curve point directly before a line point, at most two off-curve points before a curve point (cyclically for closed contours), no trailing off-curve points in an open contour, and smooth only on on-curve points.",
  "every contour element",
  "cyclic counting over unbounded point lists",
  [G+":_validateAndMassagePointStructures", G+":_buildOutlineContourFormat1", G+":_buildOutlineContourFormat2"])
p("A glyph that can be written can be read back with the same outline",
  "If writing a glyph in format 2 with validation succeeds, reading it back with validation succeeds and makes the same pen calls (same points, types, smooth flags, names, identifiers, component bases and transformations).",
  "every well-nested sequence of pen calls",
  "writer and reader validate differently; the disagreement needs specific contours",
  [G+":GLIFPointPen", G+":buildOutlineFormat2"])
p("Unicode values survive writing and reading",
  "The list of unicode values read back is the list written, with duplicates removed and order kept.",
  "every list of integers",
  "unbounded lists and integers, hexadecimal formatting of all sizes",
  [G+":_writeUnicodes", G+":_readGlyphFromTreeFormat2"])
p("Advance width and height survive writing and reading",
  "Width and height read back (0 when not set) equal the written width and height (0 when absent).",
  "every combination of absent, zero and non-zero int or float values",
  "infinite numeric domain and four presence combinations",
  [G+":_writeAdvance", G+":_readAdvance"])
p("Notes are normalised once",
  "The note read back has the same non-blank lines, each stripped; writing and reading a note that was read gives the same note.",
  "every string",
  "Unicode strings are an infinite domain",
  [G+":_writeNote", G+":_readNote"])
p("Image, guideline and anchor data survive writing and reading",
  "For valid image, guidelines and anchors, the data read back equals the data written (for images with the default transformation values filled in).",
  "every valid image dictionary, guideline list and anchor list",
  "optional keys, default elision and numeric formatting interact",
  [G+":_writeImage", G+":_readImage", G+":_writeGuidelines", G+":_writeAnchors", G+":_readGlyphFromTreeFormat2"])
p("Format 1 glyphs written by the library are accepted by its format 1 reader, with their anchors",
  "If writing a glyph in format 1 with validation succeeds, reading it in format 1 with validation succeeds; named anchors are read back as anchors.",
  "every sequence of pen calls and every anchor list",
  "format 1 has no identifiers, the pen does not know it writes format 1",
  [G+":_writeGlyphToBytes", G+":_writeAnchorsFormat1", G+":buildOutlineFormat1"])
p("The fast scanners agree with the full reader",
  "For a glyph the full reader accepts, getUnicodes, getComponentReferences and getImageReferences return the unicode values, component base names and image file name that readGlyph delivers.",
  "every GLIF document accepted by the reader",
  "two independent parsers over unbounded documents",
  [G+":_fetchUnicodes", G+":_fetchComponentBases", G+":_fetchImageFileName"])
# ---- GlyphSet
p("A glyph set behaves like a map from glyph names to the last written data",
  "After any sequence of writeGlyph and deleteGlyph calls, getGLIF returns the data last written for that glyph name, other glyphs are unaffected, and deleted or never written glyphs raise KeyError.",
  "every sequence of operations of any length, every naming function, every glyph data",
  "histories are unbounded and two glyphs can be assigned one file",
  [G+":GlyphSet.writeGlyph", G+":GlyphSet.deleteGlyph", G+":GlyphSet.getGLIF"])
p("Glyph file names assigned by a glyph set are pairwise distinct ignoring case",
  "In every glyph set reached by writeGlyph/deleteGlyph with the default naming function, two different glyphs never have file names that are equal ignoring case.",
  "every history of operations and every glyph name",
  "only particular name pairs (upper-case letter next to an illegal character or underscore) clash",
  [G+":GlyphSet.writeGlyph", G+":glyphNameToFileName"])
p("A failed writeGlyph leaves the glyph set unchanged",
  "If writeGlyph raises, the contents of the glyph set, the files on disk and a subsequently written contents.plist are as if the call had not been made.",
  "every glyph set state and every failing call",
  "exception safety at an arbitrary point of an arbitrary history",
  [G+":GlyphSet.writeGlyph"])
p("The reverse contents cache is coherent",
  "getReverseContents always equals the mapping recomputed from the current contents, whenever it was first called, as long as file names are distinct ignoring case.",
  "every history interleaving writes, deletes, rebuilds and cache reads",
  "cache coherence is a property of all interleavings",
  [G+":GlyphSet.getReverseContents", G+":GlyphSet.writeGlyph", G+":GlyphSet.deleteGlyph"])
p("Reopening a glyph set after writeContents gives the same contents; a crash before it gives a readable glyph set",
  "After writeContents, opening the directory again gives the same glyph names and files. If the process stops anywhere after the last writeContents, opening the directory gives either the old or the new table and never fails.",
  "every history and every crash point",
  "ranges over crash points",
  [G+":GlyphSet.writeContents", G+":GlyphSet.rebuildContents"])
p("Unchanged data is not rewritten",
  "When a UFO or glyph set already existed, writing data equal to the file's content performs no write on that file.",
  "every file system state and every data",
  "quantifies over all data",
  [I+":_writePlist", I+":UFOWriter.writeBytesToPath", G+":GlyphSet.writeGlyph"])
# ---- writer / reader
p("A UFO's format version never decreases and is always supported",
  "Opening an existing UFO with UFOWriter for a lower format version raises and leaves the file unchanged; after any sequence of successful openings the version in metainfo.plist is the version last requested, is 1, 2 or 3, and never decreased.",
  "every sequence of writer openings with arbitrary versions",
  "histories of openings",
  [I+":UFOWriter.__init__", I+":UFOReader.readMetaInfo"])
p("Layer directories are pairwise distinct and well formed",
  "After any sequence of getGlyphSet, renameGlyphSet and deleteGlyphSet calls on a UFO 3 writer, different layers are stored in different directories (ignoring case), each named glyphs or glyphs.*.",
  "every sequence of layer operations with arbitrary names and flags",
  "unbounded histories; the defaultLayer flag interacts with same-name renames",
  [I+":UFOWriter.getGlyphSet", I+":UFOWriter.renameGlyphSet", I+":UFOWriter.deleteGlyphSet"])
p("A written layercontents.plist is accepted by the reader",
  "If writeLayerContents with validation succeeds after any sequence of layer operations, UFOReader accepts the layer contents and reports the same layers in the given order.",
  "every history of layer operations and every layer order argument",
  "writer and reader check different conditions",
  [I+":UFOWriter.writeLayerContents", I+":UFOReader.getLayerNames", V+":layerContentsValidator"])
p("What was last written is what is read",
  "After any sequence of successful writeInfo, writeLib, writeGroups, writeKerning and writeFeatures calls, reading each item gives the value last written (absent and empty are the same).",
  "every sequence of writes, including writes of empty values, to new and existing UFOs",
  "histories of writes",
  [I+":UFOWriter.writeLib", I+":UFOWriter.writeGroups", I+":UFOWriter.writeKerning", I+":UFOWriter.writeFeatures", I+":UFOReader.readLib"])
p("A failed property list write does not destroy the file",
  "If writing a property list raises because the data cannot be represented, the previous file content is unchanged.",
  "every file system state and every unrepresentable value",
  "the failing value can be anywhere inside the data; both creation modes matter",
  [I+":_writePlist"])
p("Every supported format version can write glyphs",
  "For every supported format version, UFOWriter.getGlyphSet() for the default layer returns a usable glyph set.",
  "every format version and every writer state",
  "only one branch is wrong and it is not covered by the tests of the other versions",
  [I+":UFOWriter._getGlyphSetFormatVersion1", I+":UFOWriter.getGlyphSet"])
p("Only PNG data is accepted as images",
  "writeImage with validation stores data only if it begins with the PNG signature; readImage with validation returns only such data; getImageDirectoryListing lists exactly the files of the images directory with that signature.",
  "every byte string, file name and directory content",
  "infinite domain of byte strings",
  [I+":UFOWriter.writeImage", I+":UFOReader.readImage", I+":UFOReader.getImageDirectoryListing", V+":pngValidator"])
p("The character mapping is the inverse of the unicode table",
  "getCharacterMapping()[code] lists exactly the glyphs whose unicode values contain code, each once, and has no other keys.",
  "every glyph set",
  "unbounded relation inversion",
  [I+":UFOReader.getCharacterMapping"])
p("makeUFOPath keeps the directory and replaces only the extension",
  "makeUFOPath(path) has the directory of path and its base name with the last extension replaced by .ufo (.ufo appended when there is none), and applying it twice gives the same path as applying it once.",
  "every path",
  "infinite domain; names without extension are a special case",
  [I+":makeUFOPath"])
p("Bytes written to a path are read back and other files are untouched",
  "After writeBytesToPath(path, data) succeeds, readBytesFromPath(path) returns data and every other file keeps its content; after removePath(path) the path does not exist and files outside it keep their content.",
  "every file system state, path and data",
  "unbounded file system states",
  [I+":UFOWriter.writeBytesToPath", I+":UFOWriter.removePath", I+":_readBytesFromPath"])
p("Property lists survive writing and reading",
  "plistlib.loads(plistlib.dumps(v)) == v for every value a property list can represent, with pretty printing on or off, and with any nesting of bytes, dates and containers (tuples come back as lists).",
  "every representable value, of any nesting depth and size",
  "infinite recursive domain; the indentation added for pretty printing must never be taken for data",
  ["Lib/ufoLib/plistlib.py:dumps", "Lib/ufoLib/plistlib.py:loads", "Lib/ufoLib/plistlib.py:PlistTarget", "Lib/ufoLib/etree.py:_serialize_xml", "Lib/ufoLib/etree.py:_indent"])
p("Name record, WOFF metadata and image validators accept exactly the documented structures",
  "The validators for OpenType name records, each WOFF metadata attribute and image references accept a value iff it has the documented structure: the required keys, no unknown keys, values of the documented types at every level, directions ltr or rtl, at least one credit and extension.",
  "every Python value, nested to any depth",
  "recursive structures with optional keys at every level",
  [V+":fontInfoOpenTypeNameRecordsValidator", V+":fontInfoWOFFMetadataExtensionsValidator", V+":fontInfoWOFFMetadataCreditsValidator", V+":imageValidator"])
p("A writer call changes only the entry it is about",
  "Every UFOWriter and GlyphSet call, whether it returns or raises, leaves everything below the other entries of the UFO untouched: writeLib only touches lib.plist, layer calls only directories named glyphs or glyphs.*, image calls only images, and so on; the format version of the writer never changes.",
  "every call with arbitrary arguments, in every writer state, and every history of calls",
  "unbounded states and histories; error paths in the middle of multi-step calls count too",
  [I+":UFOWriter", "Lib/ufoLib/glifLib.py:GlyphSet"])
p("The images directory only ever holds PNG files",
  "If every file in images is a PNG file then, after any history of calls in which images are only written with validation, removed, or copied from another UFO, every file in images still begins with the PNG signature, also when calls raise.",
  "every history of calls, file system state and image data",
  "unbounded histories, including failing calls",
  [I+":UFOWriter.writeImage", I+":UFOWriter.removeImage", I+":UFOWriter.copyImageFromReader"])
p("Glyphs survive being written to a file and read from it",
  "A glyph written with writeGlyphToString or GlyphSet.writeGlyph and read with readGlyphFromString or GlyphSet.readGlyph has the same outline calls, name, unicode values, advance, note, image, guidelines, anchors and lib, whatever other glyphs were written or deleted in between. Writing it to bytes succeeds whenever the data is accepted.",
  "every glyph of any size, every drawing, every history of calls on the glyph set",
  "composition of writer, XML serializer, encoder, XML parser and reader over an infinite domain",
  ["Lib/ufoLib/glifLib.py:writeGlyphToString", "Lib/ufoLib/glifLib.py:_writeGlyphToBytes", "Lib/ufoLib/glifLib.py:readGlyphFromString", "Lib/ufoLib/glifLib.py:GlyphSet.writeGlyph", "Lib/ufoLib/glifLib.py:GlyphSet.readGlyph", "Lib/ufoLib/etree.py:tostring"])
p("Layer info survives writing and reading",
  "The color and lib given to GlyphSet.writeLayerInfo are what readLayerInfo sets afterwards, and nothing else, whatever glyphs are written or deleted in between. Only layerinfo.plist is touched. Invalid layer info, and any layer info in a UFO before version 3, is refused with GlifLibError and changes nothing.",
  "every info object, every glyph set state and every history of glyph set calls",
  "infinite domain of lib values and unbounded histories",
  ["Lib/ufoLib/glifLib.py:GlyphSet.readLayerInfo", "Lib/ufoLib/glifLib.py:GlyphSet.writeLayerInfo", "Lib/ufoLib/glifLib.py:validateLayerInfoVersion3Data"])
p("Loading and saving a UFO 1 or 2 keeps its groups and kerning files",
  "If the groups, kerning and rename maps that a UFOReader returns for a UFO 1 or 2 are given to a UFOWriter for version 1 or 2, with any other calls in between, then groups.plist and kerning.plist hold the same groups, pairs and values as before loading.",
  "every groups and kerning content, every order of reader calls, every history of writer calls, every set iteration order",
  "infinite data and unbounded histories; composition of parser, up-conversion, cache, down-conversion and serializer",
  [I+":UFOReader._upConvertKerning", I+":UFOReader.readGroups", I+":UFOReader.readKerning", I+":UFOReader.getKerningGroupConversionRenameMaps", I+":UFOWriter.setKerningGroupConversionRenameMaps", I+":UFOWriter.writeGroups", I+":UFOWriter.writeKerning", "Lib/ufoLib/converters.py:convertUFO1OrUFO2KerningToUFO3Kerning"])
p("Zipped UFOs behave like packages and change only when closed",
  "An existing .ufoz is not changed by opening a UFOWriter on it or by any call, only by close; a new one appears only at close. After close, a UFOReader finds exactly the files the writer left and the version written. Opening, reading and every call give the same outcome as for a package with the same files. The structure of an existing UFO never changes, and archives without exactly one root directory are refused unchanged. The structure argument decides what is created, and closing again changes nothing.",
  "every archive, every package, every structure argument and every history of calls",
  "unbounded histories, two code paths that must agree, crash at any point before close",
  [I+":UFOReader.__init__", I+":UFOWriter.__init__", I+":UFOWriter.close", I+":_sniffFileStructure"])
p("Layers do not disturb each other",
  "However the calls on the glyph sets of different layers of one UFOWriter are interleaved, with calls on the writer (such as getting, renaming and deleting other layers) in between, each glyph set behaves as if only its own calls were made: its calls return or raise in the same way, its table is the same, and its directory holds the same files.",
  "every interleaving of calls on any number of glyph sets and on the writer, every file system state",
  "unbounded interleavings on shared state",
  [I+":UFOWriter.getGlyphSet", I+":UFOWriter.renameGlyphSet", I+":UFOWriter.deleteGlyphSet", "Lib/ufoLib/glifLib.py:GlyphSet.writeGlyph", "Lib/ufoLib/glifLib.py:GlyphSet.deleteGlyph", "Lib/ufoLib/glifLib.py:GlyphSet.writeContents", "Lib/ufoLib/glifLib.py:GlyphSet.writeLayerInfo"])
p("What a program saves is what is loaded",
  "A program opens a UFOWriter, gets glyph sets for layers, writes and deletes glyphs and layer info, writes the contents of the glyph sets and the layer contents, in any interleaving. A UFOReader then finds every layer with exactly the glyphs that were written and not deleted, each read as it was last written, and the layer info last written.",
  "every program: any number of layers, any interleaving of calls, any glyphs",
  "composition of the whole write path and the whole read path over unbounded histories",
  [I+":UFOWriter.getGlyphSet", I+":UFOWriter.writeLayerContents", I+":UFOReader.getGlyphSet", I+":UFOReader.getLayerNames", "Lib/ufoLib/glifLib.py:GlyphSet.writeGlyph", "Lib/ufoLib/glifLib.py:GlyphSet.writeContents", "Lib/ufoLib/glifLib.py:GlyphSet.rebuildContents", "Lib/ufoLib/glifLib.py:GlyphSet.readGlyph"])
p("Renaming and deleting layers loses nothing else",
  "After renameGlyphSet(old, new, default) returns, getGlyphSet(new) has the glyphs, GLIF texts and layer info that getGlyphSet(old) had, the old name is gone, the layer is the default layer exactly if asked for, and every other layer is as it was. A rename that is refused changes nothing. After deleteGlyphSet(name) returns, the layer and its directory are gone and every other layer is as it was. Once writeLayerContents returns, UFOReader finds the same layers with the same content.",
  "every layer table, every content of the layers, every name",
  "unbounded layer tables and directory contents; interplay of name generation, directory moves and the layer table",
  [I+":UFOWriter.renameGlyphSet", I+":UFOWriter.deleteGlyphSet", I+":UFOWriter.writeLayerContents", I+":UFOWriter._findDirectoryForLayerName", I+":UFOReader.getGlyphSet"])
p("What a property list file delivers can be saved again",
  "Every value that reading a property list delivers, from whatever text, consists of property list types only, can be written, reads back as the same value, and saving that again gives the very same file.",
  "every text that is accepted as a property list",
  "all texts in every spelling XML and the number, date and data formats allow; unbounded nesting",
  ["Lib/ufoLib/plistlib.py:loads", "Lib/ufoLib/plistlib.py:dumps", "Lib/ufoLib/plistlib.py:PlistTarget", "Lib/ufoLib/plistlib.py:_make_element"])
p("Loading any UFO and saving it as UFO 3 loses nothing",
  "Whatever info, groups, kerning, lib and features a validating UFOReader delivers from a UFO 1, 2 or 3, a UFO 3 UFOWriter saves without complaint, in the same UFO or in another one, in any order and among any other calls; a UFOReader of the result delivers the same. Upgrading a UFO 1 or 2 in place and writing its layer contents, the reader finds one layer with the same glyphs, GLIF texts and layer info as before, and every other file is untouched. If the program stops half-way, the UFO can still be read.",
  "every UFO of every version, every order of the saving calls, every interleaving with other calls",
  "all contents that three versions of the format can deliver, composed with conversion, validation and every order of saving",
  [I+":UFOReader.readInfo", I+":UFOReader.readGroups", I+":UFOReader.readKerning", I+":UFOReader.readLib", I+":UFOReader.readFeatures", I+":UFOReader._upConvertKerning", I+":UFOWriter.__init__", I+":UFOWriter.writeInfo", I+":UFOWriter.writeGroups", I+":UFOWriter.writeKerning", I+":UFOWriter.writeLib", I+":UFOWriter.writeFeatures", I+":UFOWriter.writeLayerContents"])
p("A glyph read from any file can be written again and stays the same glyph",
  "If readGlyphFromString with validation accepts a GLIF text of format 1 or 2, whoever wrote it, then writeGlyphToString with validation accepts the attributes and the drawing it delivered, and reading the new text delivers the same name, advance, unicodes, note, image, guidelines, anchors, lib and the same pen calls.",
  "every byte sequence accepted by the reader, format 1 and 2, both XML backends",
  "the GLIF texts other programs write differ in quoting, order of attributes and sections, number formats, anchors in format 1; every accepted text is covered",
  [G+":readGlyphFromString", G+":writeGlyphToString", G+":_writeGlyphToBytes", G+":_readGlyphFromTree", G+":_readGlyphFromTreeFormat1", G+":_readGlyphFromTreeFormat2", G+":GLIFPointPen"])
p("A rewritten glyph file settles",
  "Writing a glyph, reading it and writing what was read gives the same bytes again; in particular a glyph that was loaded from any file and saved once is not changed by loading and saving it a second time, so version control shows no spurious differences.",
  "every glyph that can be written, and every byte sequence accepted by the reader",
  "byte identity over all glyph data, number formats, defaults and orders of dictionary items",
  [G+":readGlyphFromString", G+":writeGlyphToString", G+":_writeGlyphToBytes", G+":_readNote", G+":_writeNote", G+":GLIFPointPen", PL+":totree"])
p("A writer call that is interrupted damages at most the entry it is about",
  "If the process stops at any point of a UFOWriter call (between two changes of the file system, or in the middle of writing a file, removing a tree or moving a tree), then a reader finds every entry of the UFO that the call is not about exactly as before the call: the version, the other files, images and data, and the glyphs of other layers. The list of layers can still be read.",
  "every history of calls, every call, every crash point, whatever part of the interrupted change has reached the disk",
  "crash points cannot be enumerated by tests; the interrupted operation may leave arbitrary content behind",
  [I+":UFOWriter", I+":UFOFileStructure", I+":_UFOBaseIO._writePlist", I+":UFOWriter.deleteGlyphSet", I+":UFOWriter.renameGlyphSet", I+":UFOWriter.writeLayerContents", I+":UFOReader"])
p("A glyph set call that is interrupted damages at most the glyph it is about",
  "If the process stops at any point of writeGlyph or deleteGlyph, every other glyph has the text last written, and contents.plist and layerinfo.plist are as before; if it stops in writeContents or writeLayerInfo, no glyph is changed. A program that only writes glyphs after contents.plist was saved can be stopped anywhere: the glyph set opens with the saved table and every glyph not written since is unchanged.",
  "every history of glyph set calls, every call, every crash point, any partial content of the file being written",
  "crash points and histories cannot be enumerated by tests",
  [G+":GlyphSet.writeGlyph", G+":GlyphSet.deleteGlyph", G+":GlyphSet.writeContents", G+":GlyphSet.writeLayerInfo", G+":GlyphSet.rebuildContents"])
p("Copying the glyphs of a layer keeps them",
  "Load every glyph of a layer of any UFO with readGlyph, and write each under its name to a new glyph set of a UFO 3 with writeGlyph: every call returns, the new glyph set lists the same names, and every glyph read from it has the same attributes and draws the same; the same holds after writeContents for the directory opened again. The name written inside the old file does not matter.",
  "every source layer of UFO 1, 2 or 3, every list of glyphs with different names and whatever text their files have, every order of writing",
  "the texts and combinations of names are unbounded, and a clash of file names depends on all of them",
  [G+":GlyphSet.readGlyph", G+":GlyphSet.writeGlyph", G+":GlyphSet.writeContents", G+":GlyphSet.rebuildContents", G+":_writeGlyphToBytes", G+":_readGlyphFromTree", G+":glyphNameToFileName"])
p("A copied and saved layer is settled",
  "Once the glyphs of a layer have been written and the table saved, loading glyphs from it and writing them back, in any order and with any naming function, and saving the table again, returns without error and touches no file.",
  "every source layer, every list of glyphs, every sequence of loads and writes afterwards",
  "a formatter that is not a fixed point, or a table saved in another order, shows only on particular texts and names",
  [G+":GlyphSet.writeGlyph", G+":GlyphSet.writeContents", G+":_writeGlyphToBytes", I+":_UFOBaseIO._writePlist", PL+":dumps"])
p("Every glyph that can be read can be drawn with a segment pen",
  "glyphSet[name].draw(pen) raises exactly when reading the glyph raises, with the same exception. Otherwise the calls on the pen keep the protocol of segment pens and draw, in the order of the file, the components and the paths that the points of the contours describe; only contours without points and closing lines of length zero are left out.",
  "every glyph set, every name and every text of the glyph file, whatever contours it has",
  "the combinations of point types, starting points and contour lengths are unbounded",
  [G+":Glyph.draw", G+":Glyph.drawPoints", G+":GlyphSet.__getitem__", G+":GlyphSet.readGlyph", G+":_validateAndMassagePointStructures", PP+":BasePointToSegmentPen.endPath", PP+":PointToSegmentPen._flushContour"])
p("Reversing a glyph draws the same curves backwards",
  "A glyph that was read, drawn through ReverseContourPointPen: the pen does not raise, components and identifiers are kept, every contour keeps its points with their smoothness, names and identifiers, and describes the same curve in the other direction (lines stay lines, curves keep their off-curve points in opposite order). The result can be written and is read again as it is, and reversing it once more gives the glyph as it was.",
  "every text of a glyph file, whatever contours it has; every contour that describes a curve",
  "the combinations of point types, starting points and contour lengths are unbounded",
  [PP+":ReverseContourPointPen._flushContour", PP+":ReverseContourPointPen.addComponent", G+":readGlyphFromString", G+":GLIFPointPen.addPoint", G+":_validateAndMassagePointStructures"])
p("Segment pen calls become contours that describe the same paths",
  "Any sequence of calls that keeps the protocol of segment pens (moveTo, lines and curves, closePath or endPath; qCurveTo with None as last point for a loop; components between contours) is accepted by SegmentToPointPen, and the contours it draws describe, in order, the paths the calls draw. So a drawing that the reader accepts comes through PointToSegmentPen and SegmentToPointPen describing the same paths.",
  "every sequence of calls that keeps the protocol; every drawing the reader would accept; any coordinates",
  "the sequences of calls are unbounded, and whether the closing line is written depends on coinciding points",
  [PP+":SegmentToPointPen.closePath", PP+":SegmentToPointPen.qCurveTo", PP+":SegmentToPointPen.curveTo", PP+":SegmentToPointPen.endPath", PP+":BasePointToSegmentPen.endPath", PP+":PointToSegmentPen._flushContour"])
p("Loading a whole font of any UFO version and saving it as a new UFO 3 loses nothing",
  "Take everything a reader delivers with validation from a UFO of any version: font info, groups, kerning, lib, features, and every layer with its glyphs and layer info. A writer opens for an empty directory; whatever the order in which a program makes the calls that save these parts (one getGlyphSet per layer in the order of the layers, the calls of a layer on its glyph set, all interleaved in any way), every call returns, writeLayerContents returns at the end, and then a reader delivers the same font: the same content, and the same layers in the same order with the same default layer, the same glyphs and the same layer info.",
  "every UFO of every version whose parts a reader delivers; every interleaving of the calls that save them, with unrelated calls in between; layer order given or left to the writer",
  "the fonts, the layers and the interleavings are unbounded, and the parts of one font share one directory whose file and directory names the library invents",
  [I+":UFOReader.readInfo", I+":UFOReader.getGlyphSet", I+":UFOReader.getLayerNames", I+":UFOReader.getDefaultLayerName", I+":UFOWriter.getGlyphSet", I+":UFOWriter.writeLayerContents", I+":UFOWriter.writeInfo", I+":UFOWriter.writeGroups", I+":UFOWriter.writeKerning", I+":UFOWriter.writeLib", I+":UFOWriter.writeFeatures", G+":GlyphSet.writeGlyph", G+":GlyphSet.writeContents", G+":GlyphSet.writeLayerInfo", G+":GlyphSet.readLayerInfo", G+":GlyphSet.readGlyph"])
p("Images and data files survive loading and saving, together with the whole font",
  "Take the images and data files a reader delivers from a UFO of any version (getImageDirectoryListing and readImage with validation, getDataDirectoryListing and readBytesFromPath). In a writer for an empty directory, whatever the order of the calls writeImage and writeBytesToPath that save them and whatever other calls are made about other parts of the UFO, every one of them returns, and then a reader lists exactly these files (under the names the file system keeps) and delivers the same bytes. Saved together with a whole font as in C89, the font comes back the same as well.",
  "every set of images and data files a reader delivers; every interleaving of the calls that save them with calls that save the font or are about other files; file systems that do and do not ignore case",
  "sets of files, directory trees and interleavings are unbounded; directories are made on the way, and the listings walk whatever is there",
  [I+":UFOReader.getImageDirectoryListing", I+":UFOReader.readImage", I+":UFOReader.getDataDirectoryListing", I+":UFOReader.readBytesFromPath", I+":UFOWriter.writeImage", I+":UFOWriter.writeBytesToPath"])
p("Damaged files make the readers raise the exceptions of the library only",
  "With validation, reading the lib, groups, kerning, layer names, image list and layer info of a UFO 3 raises nothing but UFOLibError (layer info: or GlifLibError), whatever the files hold. The same is expected of opening a layer, reading the format version, the features, the font info, a glyph, and the groups, kerning and rename maps of UFO 1 and 2, however often they are read while the files change.",
  "every content of every file and every state of the directory tree; every GLIF tree; every history of calls on a reader of UFO 1 or 2",
  "a test damages a file in one way; the claim is about every sequence of bytes, and a validator that trusts the shape of one value raises something else",
  [I+":UFOReader.readLib", I+":UFOReader.readGroups", I+":UFOReader.readKerning", I+":UFOReader.readInfo", I+":UFOReader.readMetaInfo", I+":UFOReader.readFeatures", I+":UFOReader.getLayerNames", I+":UFOReader.getGlyphSet", I+":UFOReader.getImageDirectoryListing", G+":GlyphSet.readLayerInfo", G+":GlyphSet.readGlyph", G+":readGlyphFromString"])
p("Validation only refuses",
  "A call that succeeds with validation does exactly the same with validation switched off: a reader returns the same data, makes the same calls on the pen, and a writer writes the same bytes and keeps the same tables. This covers reading, writing and drawing glyphs, all readers and writers of a UFO, opening readers and writers, and whole histories of calls on a writer that do not raise.",
  "every glyph, every content of the files, every argument, every history of calls none of which raises",
  "a test compares the two modes on one input; that no branch guarded by the flag changes what is done is a claim about all of them",
  [G+":readGlyphFromString", G+":GlyphSet.readGlyph", G+":GlyphSet.writeGlyph", G+":_writeUnicodes", G+":GLIFPointPen", I+":UFOReader", I+":UFOWriter", I+":UFOReader.getImageDirectoryListing"])
p("A saved font is settled",
  "Load a font from a UFO of any version and save it in an empty directory as UFO 3. Whoever then loads it from there, opens a writer on that UFO naming the same creator, and saves what was loaded in place (any of the glyphs, tables of contents, layer infos, info, groups, kerning, lib, features and layer contents, in any order, any number of times and with any function that makes up file names): every call returns and none performs an operation on the file system, so no file gets a new modification time.",
  "every font that a reader delivers, every program that saves it, every program that saves it again in place",
  "a test compares two saves of one font made by one program; that the second never writes needs the text of every file to depend only on what the reader delivers, for all fonts and orders of calls",
  [I+":UFOWriter.__init__", I+":UFOWriter._writePlist", I+":UFOWriter.getGlyphSet", I+":UFOWriter.writeLayerContents", I+":writeFileAtomically", G+":GlyphSet.writeGlyph", G+":GlyphSet.writeContents", G+":GlyphSet.writeLayerInfo"])
p("A UFO of an older version gets only what its version defines",
  "A UFOWriter for version 1 or 2, whatever font data is written with it and whether calls return or raise, touches only the entries of the UFO that its version defines (no layercontents.plist, no layer directories other than glyphs, no images, and no features.fea in version 1). Its glyph sets write format 1 glyphs only and no layer info, and its fontinfo.plist holds only attributes of its version.",
  "every history of calls about font data on a writer of version 1 or 2, every font info, every glyph",
  "the guards are spread over two dozen methods and two modules; that none of them lets something through needs all calls and histories",
  [I+":UFOWriter.getGlyphSet", I+":UFOWriter.renameGlyphSet", I+":UFOWriter.deleteGlyphSet", I+":UFOWriter.writeLayerContents", I+":UFOWriter.writeImage", I+":UFOWriter.writeFeatures", I+":UFOWriter.writeInfo", I+":_convertFontInfoDataVersion2ToVersion1", G+":GlyphSet.writeGlyph", G+":GlyphSet.writeLayerInfo"])
p("Copying from another UFO is faithful",
  "copyFromReader(reader, source, dest) raises UFOLibError and changes nothing if the source does not exist or the destination does. Otherwise it succeeds unless a file is in the way of a directory. Afterwards a copied file has the bytes of the source, a copied directory has exactly the files and directories below the source, and all other files keep their content. A copied image is read as the image it is a copy of.",
  "every pair of file systems, every source and destination path, every directory tree",
  "unbounded trees and two independent file system states, which may compare names differently",
  [I+":UFOWriter.copyFromReader", I+":UFOWriter.copyImageFromReader", I+":UFOReader.readImage"])
p("Glyph files of any origin are read for exactly what they say",
  "readGlyphFromString succeeds on a GLIF file, whoever wrote it, exactly if the file is legal GLIF 1 or GLIF 2 (attributes the formats do not define are ignored on glyph, advance, unicode, note and lib elements and refused elsewhere; the lib is a property list as plistlib reads it), and then sets on the glyph object and draws on the pen exactly what the elements say: numbers and code points as written (integers, otherwise floats; hexadecimal in either case), missing values replaced by their defaults, repeated code points once, contours and components in their order, single named move points of format 1 as anchors, identifiers unique and legal. A file says at most one thing, and the order of elements of different kinds does not matter.",
  "every byte string, every element tree, every list of supported versions",
  "unbounded set of foreign files; both directions (nothing illegal accepted, nothing legal refused) are universal",
  [G+":readGlyphFromString", G+":_readGlyphFromTreeFormat1", G+":_readGlyphFromTreeFormat2", G+":_buildOutlineObjectsFormat1", G+":_buildOutlineObjectsFormat2", G+":_validateAndMassagePointStructures", G+":_number"])
p("Property lists of any origin are read for what they say",
  "A property list that follows the document type (dict with keys and values in turn, array, string, integer, real, true, false, data in base64 with white space anywhere, date), whoever wrote it, is read successfully exactly if its numbers and dates are legal, and the value read is the one it says: integers and real numbers as written, bytes as encoded, dates with missing parts zero and refused when there is no such day, dictionaries with the keys in the order of their first occurrence and of repeated keys the last value. This holds for files, for trees and for the lib of a glyph. A property list says at most one thing.",
  "every element tree that follows the document type, every UTF-8 file with such a value",
  "unbounded set of foreign files, nested to any depth; both directions are universal",
  [PL+":fromtree", PL+":load", PL+":loads", PL+":PlistTarget", PL+":_date_from_string", PL+":end_data"])
p("Font info is accepted exactly if it is legal, and every version is read for what it says",
  "For every attribute of fontinfo.plist, the values accepted when reading and writing are exactly those of its type in the tables of the specification (strings, integers, numbers, non-negative ones, booleans, the style names, dates with an existing day, bit lists, classes, panose, blues, stems, character sets, gasp and name records, WOFF metadata, guidelines), with the laxities named in the specification of the model. UFO 3 info is read exactly if all known attributes are legal; UFO 2 info exactly if what they stand for (nearest integers, absolute values) is; UFO 1 info exactly if what they stand for under their new names (styles, widths and character sets by name, integral floats as integers, weight -1 as none) is; and the result is exactly that. Info is written to version 3, 2 or 1 exactly if all attributes of that version (2 for 1) are legal, and the file has exactly these attributes, under the names and with the values of that version.",
  "every dictionary and info object, every attribute and value, all three versions",
  "some hundred attributes times unboundedly many values; both directions are universal",
  [I+":validateFontInfoVersion3ValueForAttribute", I+":validateFontInfoVersion2ValueForAttribute", I+":fontInfoAttributesVersion2ValueData", I+":fontInfoAttributesVersion3ValueData", I+":UFOReader.readInfo", I+":UFOWriter.writeInfo", I+":_convertFontInfoDataVersion1ToVersion2", I+":_convertFontInfoDataVersion2ToVersion3"])
p("A UFO of any origin is read for what its files say",
  "For a UFO whose property lists are UTF-8 files of the format (written by any program, with any white space and order) or missing: the format version read is the one metainfo.plist says, if supported; lib, groups and kerning are read exactly if the files say valid ones (a missing file says an empty dictionary), with exactly the entries they say; features are the text of the file; the layers are those layercontents.plist says, in its order, exactly if it is valid; a glyph set is obtained for a layer exactly if the layer is listed (the default one by its directory) and its contents.plist says names with existing files, and has exactly these; a glyph of it is read for what its file says; layer info and font info of all versions likewise. Groups and kerning of UFO 1 and 2 are those the files say, converted, and if the new names do not clash, kerning groups (by prefix or by use) are there under their new names as well and pairs have the new names.",
  "every file system, every UFO directory, layer and glyph in it, every text of the files",
  "the files are arbitrary texts from any program; every reader function on every such file",
  [I+":UFOReader.readMetaInfo", I+":UFOReader.readGroups", I+":UFOReader.readKerning", I+":UFOReader.getKerningGroupConversionRenameMaps", I+":UFOReader.readLib", I+":UFOReader.readFeatures", I+":UFOReader.readInfo", I+":UFOReader._readLayerContents", I+":UFOReader.getLayerNames", I+":UFOReader.getGlyphSet", I+":UFOReader._getPlist", G+":GlyphSet.rebuildContents", G+":GlyphSet.readGlyph", G+":GlyphSet.readLayerInfo"])
p("The options of the property list functions do what they say",
  "With any options, what dumps (or totree) writes is read back by loads (or fromtree) as the value, where: items come back in the order they had when sort_keys is off; items whose keys are not strings are left out, at any depth, when skipkeys is on and are an error otherwise; bytes come back as bytes with use_builtin_types, and without it as the ASCII text they are (refused when they are not ASCII); Data objects and byte arrays come back as bytes or as Data objects as the reader asks; tuples come back as lists. readPlistFromString and writePlistToString behave like loads and dumps without built-in types. What is not such a value is refused.",
  "every value of any nesting, every combination of the options of writer and reader",
  "unbounded nested values times all combinations of options",
  [PL+":totree", PL+":fromtree", PL+":dumps", PL+":loads", PL+":Data", PL+":_string_or_data_element", PL+":_dict_element", PL+":end_data", PL+":readPlistFromString", PL+":writePlistToString"])
p("Programs that write different parts of one UFO do not disturb each other",
  "Several programs have each opened a UFOWriter on the same UFO and make calls on it and on the glyph sets it gives them. If each program, run alone, makes only calls about its own entries of the root directory (the files lib.plist, groups.plist, ..., the directories images and data, the directories of its layers) and no entry belongs to two programs, then in every interleaving of their calls each program gets the same outcomes (including the same errors) and ends in the same state as if it had run alone, its entries hold the same files, entries of no program are unchanged, and so the resulting UFO does not depend on the schedule.",
  "every number of programs, every sequence of calls of each, every interleaving, every starting UFO, case-sensitive or not",
  "the number of schedules is unbounded; a test runs one of them",
  [I+":UFOWriter", I+":UFOWriter.getGlyphSet", I+":UFOWriter.writeLib", I+":UFOWriter.writeLayerContents", I+":UFOWriter.removePath", I+":UFOWriter.writeBytesToPath", G+":GlyphSet.writeGlyph", G+":GlyphSet.writeContents"])
p("Programs on different parts of one UFO do not disturb each other even inside their calls",
  "Several programs have each opened a UFOWriter on the same UFO and keep to different entries of the root directory. Their calls on the file system (read a file, ask whether a path exists, write, remove, make, move or copy something) are interleaved in any order, also in the middle of a call of the library, and any program may stop for good at any point. At every moment each program is exactly where it would be alone after as many steps of its own, and its entries hold what they would hold then; a program that comes to the end of its calls has had the outcomes and left the files of an uninterrupted run; no program can be kept from finishing; entries of no program are unchanged.",
  "every number of programs, every sequence of calls of each, every interleaving of their file system calls, every point at which programs stop, every starting UFO, case-sensitive or not",
  "races depend on the schedule; a test sees the few that happen to occur",
  [I+":UFOWriter", I+":UFOWriter.getGlyphSet", I+":UFOWriter._writePlist", I+":UFOWriter.writeBytesToPath", I+":UFOWriter.removePath", I+":UFOWriter.copyFromReader", G+":GlyphSet.writeGlyph", G+":GlyphSet.rebuildContents", G+":GlyphSet.deleteGlyph"])
p("Paths and names mean what they say and keep to their place",
  "A path given to readBytesFromPath, writeBytesToPath, removePath and copyFromReader stands for the place its pieces lead to ('.' and empty pieces stay, '..' goes up): that is what is read, written and removed, and other files are as before; a path that leads out of the UFO raises ValueError and changes nothing. An image name stands for a file in the images directory: writing, removing and copying images changes nothing else, and readImage gives back what writeImage stored under the same name. Whatever file names a contents.plist has, also one of other origin, no history of calls on the glyph set reads or changes anything outside the directory of the layer; a layer is always in a directory of the UFO. The names chosen by default have no '/' and are not '.' or '..', and for such names everything proved for single names and lists of names holds.",
  "every string, every UFO, every contents.plist and layercontents.plist, every history of glyph set calls",
  "names come from the files of other programs; a test tries a few friendly ones",
  [I+":UFOWriter.writeBytesToPath", I+":UFOWriter.removePath", I+":UFOWriter.copyFromReader", I+":UFOWriter.writeImage", I+":UFOWriter.removeImage", I+":UFOWriter.copyImageFromReader", I+":UFOReader.readImage", I+":UFOReader.getGlyphSet", I+":UFOWriter.deleteGlyphSet", G+":GlyphSet.rebuildContents", G+":GlyphSet.getGLIF", G+":GlyphSet.writeGlyph", G+":GlyphSet.deleteGlyph", V+":layerContentsValidator"])
p("The files of a UFO stay a tree",
  "Opening a UFOWriter and any history of calls on it and its glyph sets, whether they return or raise, leave every file and directory of the UFO in directories that exist: nothing lies in a missing directory or in a file. This also holds at every moment in the middle of the calls, for any number of programs writing the same UFO and whichever of them have stopped. So everything below the data directory is in getDataDirectoryListing, and nothing else is.",
  "every UFO whose files are a tree, every history of calls, every schedule of the file system operations of any number of programs, every point at which they stop",
  "a test looks at the UFO after a few calls, not after every history and not in the middle of calls",
  [I+":UFOWriter", I+":UFOWriter.writeBytesToPath", I+":UFOWriter.removePath", I+":UFOWriter.renameGlyphSet", I+":UFOWriter.copyFromReader", I+":UFOReader.getDataDirectoryListing", G+":GlyphSet"])
p("Open files of a UFO hold what is written to them",
  "UFOWriter.getFileObjectForPath opens the file the path leads to: empty for mode w and x, as it was for a, and for x only where nothing was; missing directories are made, and no other file changes. Whatever the caller then writes, as bytes or text and in pieces of any size, and whenever the data kept back goes to the disk, the file holds at every moment what it began with followed by a part, from the start, of what was written, and once it is closed all of it; no other file changes. Opening anew, writing and closing leaves the same UFO as writeBytesToPath with the same data. UFOReader.getReadFileForPath returns None exactly where readBytesFromPath does, and the pieces read from the file make up the bytes readBytesFromPath returns; text read is the text that was written. Opening gives a file, None (only for reading what is not there) or raises.",
  "every UFO, every path string, every mode, every sequence of writes, flushes of any size, closing and changes to other files, every sequence of reads",
  "a test writes one file in one piece and closes it; it does not look at the disk at every moment of every sequence of writes",
  [I+":UFOReader.getReadFileForPath", I+":UFOWriter.getFileObjectForPath", I+":UFOWriter.writeBytesToPath", I+":_readBytesFromPath"])
p("What a caller does to results does not change later results",
  "A caller may change in place the dictionaries it was given: the groups, the rename maps and the kerning a UFOReader returned, and the dictionary GlyphSet.getReverseContents returned. Later calls return and raise as if it had not: readKerning, readGroups, getKerningGroupConversionRenameMaps on the same reader, and the glyphs and files of the glyph set after any further calls.",
  "every history of calls with every change of results in between, every content of the files at every call, every conversion",
  "a test does not change results in every possible way between every two calls",
  [I+":UFOReader.readGroups", I+":UFOReader.readKerning", I+":UFOReader.getKerningGroupConversionRenameMaps", I+":UFOReader._upConvertKerning", G+":GlyphSet.getReverseContents", G+":GlyphSet.deleteGlyph"])
p("Reading a glyph onto any pen and any glyph object",
  "readGlyph and readGlyphFromString make the same calls in the same order on every pen: what a pen raises is raised and nothing more is called, a pen that does not know the keyword identifier gets the same drawing without identifiers, a glyph object that takes only some attributes gets exactly those. When reading succeeds the pen has got whole contours and components; when it fails, the beginning of what reading without validation draws, and nothing at all if the data is no glyph of a known format.",
  "every GLIF tree, every format version, with and without validation, every pen as a state machine that may raise at any call, every set of attributes the glyph object takes",
  "tests use two or three pens that never fail and glyph objects that take everything",
  [G+":readGlyphFromString", G+":_readGlyphFromTree", G+":_readGlyphFromTreeFormat1", G+":_readGlyphFromTreeFormat2", G+":buildOutlineFormat1", G+":buildOutlineFormat2", G+":_buildOutlineContourFormat2", G+":_buildOutlinePointsFormat2", G+":_buildOutlineComponentFormat2", G+":_relaxedSetattr"])
p("Reading a glyph through a filtering pen",
  "readGlyph with ReverseContourPointPen(pen) draws on any pen exactly the contours and components of the glyph in their order, every contour turned round and everything else unchanged; what the pen raises is raised; a contour whose reading fails in the middle does not reach the pen at all. readGlyph with GuessSmoothPointPen(pen) draws the same contours and components in their order with the same points, types, names and point identifiers.",
  "every GLIF tree of format 1 and 2, with and without validation, every pen as a state machine that may raise at any call (except TypeError), every direction test",
  "tests draw complete contours on pens that never fail; the place where a reading stops and the exceptions of the pen behind are not enumerable",
  [PP+":ReverseContourPointPen", PP+":GuessSmoothPointPen", G+":readGlyphFromString", G+":buildOutlineFormat2"])
p("Drawing a glyph on any segment pen",
  "glyph.draw(pen), with validation: the calls the segment pen gets keep the pen protocol and draw, in order, the components and the paths that the points of the contours describe. What the pen raises is raised and it gets no further call. When the reading fails in the middle, every path that has been begun on the pen has been ended: the contour it fails in is not begun.",
  "every GLIF tree of format 1 and 2, every segment pen as a state machine that may raise at any call, every place at which the reading can fail",
  "tests draw complete glyphs on pens that never fail; the places where a reading stops and the exceptions of the pen are not enumerable",
  [PP+":BasePointToSegmentPen", PP+":PointToSegmentPen", G+":Glyph.draw", G+":readGlyphFromString", G+":buildOutlineFormat2"])
p("A property list or glyph file that was cut off is noticed",
  "Take a UFO and cut off any of its files at any byte, as an interrupted write or an incomplete copy does. Reading the format version, the info, the lib, groups, kerning (with and without conversion), layer names, the table of a layer, the layer info or a glyph, and opening the UFO for writing, either raises or gives exactly what the whole files give. Never does a reader deliver a part.",
  "every UFO, every set of files cut off, each at any byte, every flag and format version; every property list value written and every text of a glyph",
  "a test cuts some files at some places; a value delivered from a part of a file needs one particular place in one particular file",
  [I+":_getPlist", I+":UFOReader", I+":UFOWriter.__init__", G+":GlyphSet.readGlyph", G+":GlyphSet.rebuildContents", G+":GlyphSet.readLayerInfo", PL+":load", G+":readGlyphFromString"])
p("Scanning glyph files that were cut off",
  "getUnicodes, getComponentReferences, getImageReferences and getCharacterMapping fetch from well-formed files what reading the glyphs gives. From files that were cut off they raise or fetch everything; so do readFeatures and readImage.",
  "every layer, every set of files cut off, each at any byte",
  "the scanners hand text to a parser that calls back in the middle of it; what they deliver for every place where a text can stop is not enumerable",
  [G+":_fetchUnicodes", G+":_fetchImageFileName", G+":_fetchComponentBases", G+":_BaseParser", G+":GlyphSet.getUnicodes", I+":UFOReader.getCharacterMapping", I+":UFOReader.readFeatures", I+":UFOReader.readImage"])
p("A process that stops while it writes leaves the files of some point of the session",
  "A writer is opened and calls are made that write or remove one file each (info, lib, groups, kerning, features, layer contents, glyphs, glyph tables, layer info, images and data files in existing directories) or obtain a glyph set. When the process is stopped at any moment, even in the middle of writing a file, the UFO is as before the session or as after some of the calls, except that one file may be cut off. Every method that reads a property list or a glyph then raises or gives what it gives at that point of the session; in particular an interrupted writeLib leaves the old lib, the new lib or an exception.",
  "every UFO, every writer, every history of such calls (successful or not), every moment, every length of the part of a file that was written",
  "a test stops a process at a few moments; which moments are harmful depends on the bytes that have been written",
  [I+":UFOWriter", I+":UFOWriter._writePlist", I+":UFOWriter.writeBytesToPath", G+":GlyphSet.writeGlyph", G+":GlyphSet.writeContents", G+":GlyphSet.writeLayerInfo", I+":UFOReader"])
p("An interrupted session can be repeated",
  "A UFO 3 that existed is opened for writing, and calls are made that write or remove one file each (info, lib, groups, kerning, features, glyphs, glyph tables, layer info, images and data files in existing directories). When the process is stopped at any moment, the UFO can be opened for writing again as before, opening it changes nothing, and making the same calls again from the first one gives exactly the files and directories of a session that was not interrupted.",
  "every UFO 3, every history of such calls (successful or not), every moment at which the process stops, every length of the part of a file that was written",
  "the states that are left behind are those of every moment and of every length of a file; a test repeats a session after a few of them",
  [I+":UFOWriter.__init__", I+":UFOWriter._writePlist", I+":UFOWriter.writeBytesToPath", I+":UFOWriter.removePath", I+":UFOWriter.copyImageFromReader", G+":GlyphSet.writeGlyph", G+":GlyphSet.deleteGlyph", G+":GlyphSet.writeContents"])
p("Editing a UFO that exists",
  "A UFO 3 that a reader accepts is opened for writing, the glyph set of one of its layers is obtained, glyphs are written and deleted, and the contents are written. Then a reader finds in this layer exactly the glyphs it would have found before, changed as the calls say: the text last written, no glyph that was deleted, and every other glyph with its text; and all other files of the UFO are as they were, but for metainfo.plist.",
  "every UFO 3 with any glyphs in files of any names, every layer, every history of calls on its glyph set, every file system that at most ignores case",
  "the glyphs and file names that are there before are those of any program; a test edits a few small UFOs, mostly ones that the library has just written",
  [I+":UFOWriter.__init__", I+":UFOWriter.getGlyphSet", I+":UFOWriter.writeLayerContents", I+":UFOReader.getGlyphSet", G+":GlyphSet.__init__", G+":GlyphSet.rebuildContents", G+":GlyphSet.writeGlyph", G+":GlyphSet.deleteGlyph", G+":GlyphSet.writeContents", G+":glyphNameToFileName"])
p("The order of dictionaries does not change the files",
  "Two programs make the same calls to save a font, with equal data except that dictionaries (font info, lib, groups, kerning, layer info, the guidelines, anchors, image and lib of glyphs, at any depth) were filled in different orders. Then all files they leave are equal byte for byte, and the same calls raise.",
  "every program of any number of calls, all data, every order of the items of every dictionary at any depth, every UFO version, every file system",
  "the number of orders grows as a factorial and validators, converters and writers each iterate over dictionaries; a test compares a few orders of a few small dictionaries",
  [I+":UFOWriter.writeGroups", I+":UFOWriter.writeInfo", I+":UFOWriter.writeKerning", I+":UFOWriter.writeLib", G+":GlyphSet.writeGlyph", G+":GlyphSet.writeLayerInfo", G+":_writeGlyphToBytes", PL+":totree", PL+":dump", V+":genericDictValidator"])
p("The order in which the parts of a font are saved does not matter",
  "Calls that write data about different entries of the root directory (info, groups, kerning, lib, features, the table of layers, images, data, the glyphs of different layers) can be made in any order: the files, the writer and the glyph sets are the same in the end, and every call returns or raises the same, whatever was called before and is called afterwards.",
  "every program of any number of calls, all data valid or not, every reordering, every state of the UFO, every file system",
  "the number of orders grows as a factorial, and a hidden dependency between two calls (one that remembers something for another) shows only in one order of one pair with certain data",
  [I+":UFOWriter.writeGroups", I+":UFOWriter.writeInfo", I+":UFOWriter.writeKerning", I+":UFOWriter.writeLib", I+":UFOWriter.writeFeatures", I+":UFOWriter.writeLayerContents", I+":UFOWriter.writeImage", I+":UFOWriter.writeBytesToPath", G+":GlyphSet.writeGlyph", G+":GlyphSet.writeContents"])
p("A program that is started again after an interruption repairs the UFO",
  "A program opens an existing UFO, gets the glyph sets of some layers, adds and replaces glyphs, saves the tables and writes other parts of the font. It is killed anywhere and started again: it reads whatever tables the interruption left, chooses the file names anew, and if it gets its glyph sets, every file is in the end what it would have been without the interruption; no glyph gets another file name, no file is left over.",
  "every program of that kind, of any length, on any number of layers; every point at which it can stop, also in the middle of writing a file; every existing UFO",
  "the file names that the second run chooses depend on which of the tables were saved before the stop and on every clash of names; one bad combination of stop and names is enough",
  [I+":UFOWriter.__init__", I+":UFOWriter.getGlyphSet", G+":GlyphSet.__init__", G+":GlyphSet.rebuildContents", G+":GlyphSet.writeGlyph", G+":GlyphSet.writeContents", G+":GlyphSet.writeLayerInfo", "Lib/ufoLib/filenames.py:userNameToFileName"])
p("readPlist and writePlist close what they open and leave the rest alone",
  "Given a path, readPlist and writePlist have closed the file they opened when they return or raise; given an open file, they leave it open, write behind what was written to it and read from where it is. No other open file and no other path is touched, readPlist changes nothing on the disk, and a value that was written is read back. A value that is refused leaves what was there as it was.",
  "every value, every path and open file in any state, every content of the disk, every set of open files, whether the call returns or raises",
  "leaks and half-written files show only on the paths that raise, and there is one for every malformed value or file",
  [PL+":readPlist", PL+":writePlist", PL+":load", PL+":dump"])
p("Modification times tell which files have changed", "getFileModificationTime is None exactly if there is nothing at the path. On a file system whose clock goes on between any two changes, a path that has the same modification time as before has the same contents as before, whatever programs did in between; a path whose contents have changed has a later time. Calls that are not about a file keep its time. writeGlyph of a glyph that is there, in a layer that existed, changes the time that getGLIFModificationTime gives for it exactly if the data differ, and the times of all other glyphs stay. So a program that reads a glyph again only when the time has changed always has the current data.", "every file system and clock, every sequence of changes by any programs, every history of calls of a writer and its glyph sets, every glyph", "whether a change keeps the time of a file depends on the whole history of writes; tests compare the times of a few files once", [I + ":_getFileModificationTime", G + ":GlyphSet.getGLIFModificationTime", G + ":GlyphSet.writeGlyph", G + ":_writeGlyphToBytes"])
p("A with statement closes the writer, hides no exception and saves only when the block succeeds", "with UFOWriter(path) as writer: the writer is closed in the end however the block is left. The statement raises what the first failing call of the block, or the program itself, raises, and nothing if the block succeeds; no call after the failing one is made. A reader then finds exactly the files that the calls made have left, with the version of the writer. When the block succeeds this is the same as making the calls and closing the writer. When the block raises, an existing archive stays as it was and a new one is not made.", "every block of calls, every call that can fail or exception of the program, packages and archives, new and existing UFOs", "the exception can come after any call of any block; tests use with statements whose block succeeds", [I + ":UFOWriter.__enter__", I + ":UFOWriter.__exit__", I + ":UFOWriter.close"])
p("A file system object that a program hands over stays open until the program closes it", "UFOReader(filesystem), UFOWriter(filesystem) and GlyphSet(filesystem) take a file system object that the program has made. As long as the program does not close it, it stays open, whatever readers, writers and glyph sets are opened, used and closed on it, whether they succeed or raise, and its files are what the writers leave. A closed object is refused with UFOLibError (GlifLibError for glyph sets) and nothing changes. A writer for an object does the same as a writer for the path of a directory with the same files, if there is a metainfo.plist; if there is none the object is taken for a new UFO, and the path is refused.", "every file system object, every sequence of readers, writers and glyph sets on it, all calls on the writers, all format versions", "the branch that closes the file system is only reached with particular contents of metainfo.plist, and the effect shows only when the object is used again", [I + ":UFOReader.__init__", I + ":UFOWriter.__init__", I + ":UFOWriter.close", I + ":UFOReader.close", G + ":GlyphSet.__init__"])
p("No failure of the file system goes unnoticed", "A file system can fail each time it is used: no space left, no permission, a lost connection, an object that was closed. If anything fails during a call on a writer or on a glyph set it gave out, at whatever point and whatever the failing operation leaves behind, the call raises. So a program whose calls all return normally has left exactly the files that it leaves on a file system that never fails. If the operations that fail do harm only below the entries of the root directory that they are about, all other entries keep their files. After the file system object was closed, only calls that use no files return normally.", "every format version, every state of the files, every call on the writer and on glyph sets, every sequence of calls, every combination of operations that fail, everything that a failing operation can leave behind", "tests use file systems that work; the number of points at which something can fail, and of what can be left behind, is unbounded", [I + ":UFOWriter.writeBytesToPath", I + ":UFOWriter._writePlist", I + ":UFOWriter.removePath", I + ":UFOWriter.getGlyphSet", I + ":UFOWriter.renameGlyphSet", I + ":UFOWriter.deleteGlyphSet", I + ":UFOWriter.copyFromReader", G + ":GlyphSet.writeGlyph", G + ":GlyphSet.deleteGlyph", G + ":GlyphSet.writeContents"])
p("A reader or writer that meets a failure of the file system says so", "If the file system fails at any point while something is read - format version, info, lib, groups, kerning, features, names of layers, glyph sets, character mapping, data files, images, glyphs, layer info, the tables made from glyphs - the method raises: failures are never taken for a missing file, an empty table or a default. What a method returns is what the files hold. Reading leaves the files alone, whatever fails. Making a writer succeeds only if nothing failed, and then gives the writer and the files that it gives on a file system that never fails. So a program that opens a writer, makes calls that all return normally and reads something has read what it reads when nothing can fail.", "every state of the files, every reading method with every argument, every format version, every combination of operations that fail", "tests use file systems that work; the points at which something can fail are unbounded", [I + ":_getPlist", I + ":UFOReader.readInfo", I + ":UFOReader.readLib", I + ":UFOReader.readGroups", I + ":UFOReader.readKerning", I + ":UFOReader.readFeatures", I + ":UFOReader.getLayerNames", I + ":UFOReader.getGlyphSet", I + ":UFOReader.getCharacterMapping", I + ":UFOReader.readBytesFromPath", I + ":UFOReader.readImage", I + ":UFOWriter.__init__", G + ":GlyphSet.getGLIF", G + ":GlyphSet.readGlyph", G + ":GlyphSet.readLayerInfo", G + ":GlyphSet.getUnicodes"])
p("Reading a UFO while another program writes it", "Every reading method gives what it gives at one of the points of the other program's session, or raises. Methods that read one file do: their result is that of the moment at which the file was read, and if the file was being written at this moment and the result is a value, it is that of a point of the session. Names of layers, images and each entry of the tables made from glyphs are those of one moment. A glyph set has its directory and its table from moments that can differ. Groups and kerning of UFO 1 and 2 are converted from the groups of one moment and the kerning of a later one, and so the full claim is false: readKerning can return kerning that the UFO has at no point of the session.", "every session of a writer, every state of the files at each moment at which the reader uses them, every reading method", "the interleavings of two programs are unbounded and cannot be controlled by a test", [I + ":UFOReader._upConvertKerning", I + ":UFOReader.readLib", I + ":UFOReader.readInfo", I + ":UFOReader.readGroups", I + ":UFOReader.readKerning", I + ":UFOReader.getLayerNames", I + ":UFOReader.getGlyphSet", I + ":UFOReader.readImage", G + ":GlyphSet.readGlyph", G + ":GlyphSet.getUnicodes"])
p("Renaming a layer loses nothing, whenever it stops", "renameGlyphSet moves the directory of a layer file by file. If the process stops (or the file system raises) at any moment of this, also while a file is being written, then all files of the layer are still in its old directory or all of them are in its new one, nothing else has changed, and the files are a tree. The program can then be started again: the UFO opens as before and renaming the layer again leaves exactly the files and the writer of a call that was not interrupted.", "every UFO, every layer with any tree of files, every order in which the files are copied and removed, every moment", "the moments at which a process can stop, and the orders of the files, cannot be controlled by a test", [I + ":UFOWriter.renameGlyphSet", I + ":UFOWriter.__init__", I + ":UFOWriter._readLayerContents"])
p("Closing an archive is all or nothing", "UFOWriter.close on an archive replaces it as a whole: if the process stops at any moment of close, or close raises because the file system fails, then a reader afterwards finds the font as it was before the writer was opened or as the writer left it, never a mixture or a part. When close raised, calling it again completes it. Closing a package changes nothing.", "every archive, every history of calls on the writer, every moment of close at which the process stops, every set of entries copied before a failure and every number of failing attempts", "Tests close on a healthy disk and are not stopped half way; the states between the first and the last byte of the archive are never seen.", [I + ":UFOWriter.close", I + ":UFOWriter.__init__", I + ":_sniffFileStructure"])
p("The listing of the data directory is complete", "UFOReader.getDataDirectoryListing returns every file below the data directory, at any depth, each once and nothing else. If other programs change the UFO while it looks, every path returned was a file at some moment, and every file that was there all the time is returned; if the file system fails, it raises.", "every tree of files, every sequence of changes by other programs between the looks at the directories, every point at which looking fails", "Tests list a directory nobody else works on; the order of scanning and removing is up to the operating system.", [I + ":UFOReader.getDataDirectoryListing"])
p("Programs that work on different glyphs of a layer do not lose each other's changes", "If several programs have opened the same layer and each writes, adds and deletes glyphs that no other program touches, then in every order of their calls each gets the outcomes it would get alone, all changes are there afterwards, the layer can be opened, and what no program touched is as before.", "every number of programs, every layer, every order of their calls", "Whether changes get lost depends on the order of calls of several programs; tests use one glyph set at a time.", [G + ":GlyphSet.writeGlyph", G + ":GlyphSet.deleteGlyph", G + ":GlyphSet.writeContents", G + ":GlyphSet.rebuildContents"])
p("Copying inside one UFO ends and copies everything", "Copying a file or directory of a UFO to another place of the same UFO ends; afterwards the destination has exactly what the source had, and the rest of the UFO is as before.", "every UFO, every source, every destination that does not exist yet", "Whether the copy meets its own output depends on where the destination lies and on how deep the directories are; tests copy between two UFOs.", [I + ":UFOWriter.copyFromReader"])
p("A glyph object can be kept and drawn at any time", "An object obtained with glyphSet[name] can be kept while the glyph set changes: whenever it is drawn, the calls on the pen and the attributes of the object are those of the glyph as it is then, and drawing raises exactly what reading the glyph raises (KeyError once it was deleted).", "every glyph set, every sequence of changes and drawings", "Stale data shows only when an object is drawn more than once and the glyph has lost something in between; tests draw each object once.", [G + ":Glyph", G + ":GlyphSet.__getitem__", G + ":_relaxedSetattr"])
p("Writing a glyph object to another glyph set copies the glyph", "For an object obtained with src[name], dst.writeGlyph(newName, object, object.drawPoints) writes a glyph that is read as the same glyph, with the same outline and the same attributes.", "every glyph of every glyph set that can be read, every new name", "The object changes while it is written; which attributes come out depends on the order inside of the writer, which no single value shows.", [G + ":Glyph.drawPoints", G + ":_writeGlyphToBytes", G + ":GlyphSet.writeGlyph"])
p("Reading into an object is all or nothing", "readInfo, readLayerInfo and readGlyph put what they read into an object of the caller. If they raise, the object is as before; otherwise it has the attributes that the file has, and its other attributes are as before. What readGlyph raises or draws does not depend on the object.", "every file, every object with whatever attributes, also one that refuses to have some attributes set", "A half-filled object needs a fault at a certain place of the file or an object that refuses a certain attribute; tests check that an exception is raised, not what it leaves.", [I + ":UFOReader.readInfo", G + ":GlyphSet.readLayerInfo", G + ":GlyphSet.readGlyph", G + ":_relaxedSetattr"])
p("An info object carries the info of one UFO to another", "readInfo into an object and writeInfo of that object to a UFO 3 leave in the UFO exactly the info that was read, whatever the session writes besides. An object that is read into several times has each attribute from the last UFO that has it.", "every UFO that can be read, every object, every number of UFOs read into it, every session before and after", "What an object keeps from an earlier font matters only for certain pairs of fonts; tests use new objects.", [I + ":UFOReader.readInfo", I + ":UFOWriter.writeInfo"])
p("Files opened for updating behave as arrays of bytes", "UFOWriter.getFileObjectForPath with the modes r+b, w+b, a+b and x+b returns a file with which the caller can seek, read, write and truncate: every call returns or raises what it would with an array of bytes and a position, so bytes that were written are read back at once, bytes beyond the end are preceded by zeros, and with a everything is written at the end. At every moment the file in the UFO lacks at most the last bytes written, and once it is closed it is the array. No other file changes.", "every UFO, every path string, every mode, every sequence of seeks, reads, writes, truncations, flushes of any size and changes to other files", "a test does a few operations on one small file, and cannot choose when the buffer is written", [I + ":UFOWriter.getFileObjectForPath"])
p("Layer info can be carried to another layer", "GlyphSet.readLayerInfo of one layer into an object, followed by GlyphSet.writeLayerInfo of that object in another layer of any UFO 3, raises nothing, and afterwards the second layer has the color and the lib of the first, and no others, whatever glyphs are written and deleted there in between.", "every two glyph sets, every object, every layer info, every sequence of later calls", "a test carries one layer info to a new layer with a new object", [G + ":GlyphSet.readLayerInfo", G + ":GlyphSet.writeLayerInfo"])
p("Text files can be read in pieces and by lines", "A file of a UFO that UFOReader.getReadFileForPath opens with encoding utf-8 gives its text: read(n) returns the next n characters (fewer at the end), read() all that is left, readline the next line with its line end (LF, CR or CR LF, unchanged), in any mixture, however the file is divided into blocks, also when a block ends within a character or between CR and LF. All pieces together are the text; text that was written in pieces with UFOWriter.getFileObjectForPath is read back. For a file that is not UTF-8 UnicodeDecodeError is raised before any call comes to the end.", "every text, every sequence of calls, every division of the file into blocks, every file that is not UTF-8", "a test reads small files that fit into one block", [I + ":UFOReader.getReadFileForPath"])
if __name__ == "__main__":
    out = os.path.join(os.path.dirname(os.path.abspath(__file__)), "..", "properties.jsonl")
    with open(out, "w") as f:
        for x in P: f.write(json.dumps(x) + "\n")
    for x in P: print(x["id"], x["title"])
