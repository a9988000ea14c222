{
 "claims": [
  {
   "property": "C01",
   "status": "proved",
   "theorems": [
    "Verif.Props.C01_fresh"
   ],
   "note": ""
  },
  {
   "property": "C02",
   "status": "partial",
   "theorems": [
    "Verif.Props.C02_length_partial",
    "Verif.Props.C02_length_unescaped_partial",
    "Verif.Props.C02_length_refuted"
   ],
   "note": "The bound of 255 is false (C02_length_refuted): device-name components are escaped after clipping. Proved: 255 plus the number of escaped components, hence 255 when there are none."
  },
  {
   "property": "C03",
   "status": "proved",
   "theorems": [
    "Verif.Props.C03_legal"
   ],
   "note": ""
  },
  {
   "property": "C04",
   "status": "proved",
   "theorems": [
    "Verif.Props.C04_reserved",
    "Verif.Props.C04_reserved_whole"
   ],
   "note": ""
  },
  {
   "property": "C05",
   "status": "proved",
   "theorems": [
    "Verif.Props.C05_succeeds",
    "Verif.Props.C05_empty",
    "Verif.Props.C05_only_errors"
   ],
   "note": ""
  },
  {
   "property": "C06",
   "status": "proved",
   "theorems": [
    "Verif.Props.C06_history"
   ],
   "note": ""
  },
  {
   "property": "C07",
   "status": "proved",
   "theorems": [
    "Verif.Props.C07_precedence",
    "Verif.Props.C07_precedence_maps",
    "Verif.Props.C07_one_map"
   ],
   "note": ""
  },
  {
   "property": "C08",
   "status": "proved",
   "theorems": [
    "Verif.Props.C08_order_independent",
    "Verif.Props.C08_needs_validity"
   ],
   "note": ""
  },
  {
   "property": "C09",
   "status": "proved",
   "theorems": [
    "Verif.Props.C09_groups_iff"
   ],
   "note": ""
  },
  {
   "property": "C10",
   "status": "partial",
   "theorems": [
    "Verif.Props.C10_groups_partial",
    "Verif.Props.C10_injective",
    "Verif.Props.C10_copy_refuted"
   ],
   "note": "Originals kept, nothing else added, and copies faithful when no two groups of a side get the same new name. Without that the copy can be overwritten (C10_copy_refuted): the code checks new names against old names only."
  },
  {
   "property": "C11",
   "status": "partial",
   "theorems": [
    "Verif.Props.C11_lossless_partial",
    "Verif.Props.C11_injOn",
    "Verif.Props.C11_lossless_refuted"
   ],
   "note": "Lossless when renaming is injective (sufficient conditions: C10_injective, C11_injOn). Refuted in general: @MMK_L_A and A are both renamed to public.kern1.A and a pair is lost."
  },
  {
   "property": "C12",
   "status": "partial",
   "theorems": [
    "Verif.Props.C12_order_partial",
    "Verif.Props.C12_order_refuted"
   ],
   "note": "Rename maps and kerning never depend on the order; groups do not when no two groups get the same new name; refuted otherwise (C12_order_refuted)."
  },
  {
   "property": "C13",
   "status": "proved",
   "theorems": [
    "Verif.Props.C13_total",
    "Verif.Props.C13_renamed"
   ],
   "note": ""
  },
  {
   "property": "C14",
   "status": "partial",
   "theorems": [
    "Verif.Props.C14_groups",
    "Verif.Props.C14_kerning_partial",
    "Verif.Props.C14_kerning_refuted"
   ],
   "note": "Groups are always restored; kerning is restored when the rename maps are injective; refuted otherwise."
  },
  {
   "property": "C15",
   "status": "proved",
   "theorems": [
    "Verif.Props.C15_snapshot",
    "Verif.Props.C15_raises",
    "Verif.Props.C15_wellformed"
   ],
   "note": ""
  },
  {
   "property": "C16",
   "status": "partial",
   "theorems": [
    "Verif.Props.C16_failed_conversion_refuted",
    "Verif.Props.C16_failed_read_partial"
   ],
   "note": "Refuted: the cache is stored before the conversion runs, so after a failed conversion the next call returns empty data. Proved for failures of reading and of the groups check."
  },
  {
   "property": "C17",
   "status": "proved",
   "theorems": [
    "Verif.Props.C17_reversed",
    "Verif.Props.C17_first",
    "Verif.Props.C17_involution",
    "Verif.Props.C17_drawing"
   ],
   "note": ""
  },
  {
   "property": "C18",
   "status": "proved",
   "theorems": [
    "Verif.Props.C18_open",
    "Verif.Props.C18_involution"
   ],
   "note": ""
  },
  {
   "property": "C19",
   "status": "proved",
   "theorems": [
    "Verif.Props.C19_closed",
    "Verif.Props.C19_open",
    "Verif.Props.C19_offcurve",
    "Verif.Props.C19_move_first",
    "Verif.Props.C19_short"
   ],
   "note": ""
  },
  {
   "property": "C20",
   "status": "partial",
   "theorems": [
    "Verif.Props.C20_closed_partial",
    "Verif.Props.C20_open_partial",
    "Verif.Props.C20_offcurve_partial",
    "Verif.Props.C20_closing_refuted",
    "Verif.Props.C20_single_refuted",
    "Verif.Props.C20_offcurve_refuted",
    "Verif.Props.C20_trailing_refuted"
   ],
   "note": "Proved for closed contours (unless the closing line is implied and the last point coincides with the first), open contours without trailing off-curve points, and contours without on-curve points whose ends differ. Each remaining case is refuted with a witness."
  },
  {
   "property": "C21",
   "status": "proved",
   "theorems": [
    "Verif.Props.C21_only_smooth"
   ],
   "note": ""
  },
  {
   "property": "C22",
   "status": "partial",
   "theorems": [
    "Verif.Props.C22_lxml",
    "Verif.Props.C22_lxml_noTuple",
    "Verif.Props.C22_builtin_partial",
    "Verif.Props.C22_builtin_bytes_refuted"
   ],
   "note": "Proved in full for the lxml backend. With the built-in backend it is refuted for non-empty bytes (TypeError when reading the tree) and proved for all other values."
  },
  {
   "property": "C23",
   "status": "proved",
   "theorems": [
    "Verif.Props.C23_base64"
   ],
   "note": ""
  },
  {
   "property": "C24",
   "status": "proved",
   "theorems": [
    "Verif.Props.C24_dates"
   ],
   "note": ""
  },
  {
   "property": "C25",
   "status": "proved",
   "theorems": [
    "Verif.Props.C25_lxml",
    "Verif.Props.C25_builtin",
    "Verif.Props.C25_refuses"
   ],
   "note": ""
  },
  {
   "property": "C26",
   "status": "proved",
   "theorems": [
    "Verif.Props.C26_order"
   ],
   "note": ""
  },
  {
   "property": "C27",
   "status": "partial",
   "theorems": [
    "Verif.Props.C27_cdata_exact",
    "Verif.Props.C27_cdata_partial",
    "Verif.Props.C27_cr_refuted"
   ],
   "note": "Proved exactly: the parser reads the text with line ends normalised, so all text without CR survives; refuted for every text with CR (written raw)."
  },
  {
   "property": "C28",
   "status": "partial",
   "theorems": [
    "Verif.Props.C28_attrib_exact",
    "Verif.Props.C28_attrib_partial",
    "Verif.Props.C28_tab_refuted"
   ],
   "note": "Proved exactly: the parser reads the value with CR and TAB replaced by spaces, so all other values survive; refuted for every value with CR or TAB."
  },
  {
   "property": "C29",
   "status": "partial",
   "theorems": [
    "Verif.Props.C29_plain_partial",
    "Verif.Props.C29_pretty_partial",
    "Verif.Props.C29_refuted"
   ],
   "note": "Proved for all trees without CR in texts and without CR or TAB in attribute values; refuted otherwise."
  },
  {
   "property": "C30",
   "status": "proved",
   "theorems": [
    "Verif.Props.C30_identifier"
   ],
   "note": ""
  },
  {
   "property": "C31",
   "status": "partial",
   "theorems": [
    "Verif.Props.C31_guidelines_partial",
    "Verif.Props.C31_anchors",
    "Verif.Props.C31_angle_refuted"
   ],
   "note": "Proved exactly for anchors. For guidelines an angle nan is accepted (C31_angle_refuted); everything else is proved as an equivalence."
  },
  {
   "property": "C32",
   "status": "partial",
   "theorems": [
    "Verif.Props.C32_color_partial",
    "Verif.Props.C32_refuted"
   ],
   "note": "Equivalence with four numbers none of which is below 0 or above 1; nan is therefore accepted (C32_refuted)."
  },
  {
   "property": "C33",
   "status": "partial",
   "theorems": [
    "Verif.Props.C33_complete",
    "Verif.Props.C33_sound_partial",
    "Verif.Props.C33_refuted",
    "Verif.Props.C33_year_zero_refuted"
   ],
   "note": "Completeness proved in full. Soundness proved for strings of digits and separators; refuted otherwise (signs, underscores) and for the year 0."
  },
  {
   "property": "C34",
   "status": "proved",
   "theorems": [
    "Verif.Props.C34_layerContents",
    "Verif.Props.C34_total"
   ],
   "note": ""
  },
  {
   "property": "C35",
   "status": "partial",
   "theorems": [
    "Verif.Props.C35_weightClass",
    "Verif.Props.C35_widthClass",
    "Verif.Props.C35_panose2",
    "Verif.Props.C35_panose3",
    "Verif.Props.C35_familyClass",
    "Verif.Props.C35_blues",
    "Verif.Props.C35_stems",
    "Verif.Props.C35_characterSet_partial",
    "Verif.Props.C35_characterSet_refuted",
    "Verif.Props.C35_styleMap",
    "Verif.Props.C35_intList",
    "Verif.Props.C35_gasp",
    "Verif.Props.C35_kerning",
    "Verif.Props.C35_fontLib",
    "Verif.Props.C35_glyphLib"
   ],
   "note": "Equivalences for all listed validators; the character set validator also accepts floats such as 3.0 (refuted for integers only)."
  },
  {
   "property": "C36",
   "status": "partial",
   "theorems": [
    "Verif.Props.C36_total_partial",
    "Verif.Props.C36_refuted",
    "Verif.Props.C36_gasp_refuted",
    "Verif.Props.C36_python_refuted"
   ],
   "note": "Proved on Python >= 3.8 for all property list values whose integer lists and gasp behavior lists contain no lists or dictionaries. False otherwise: set() of an unhashable item raises TypeError (C36_refuted, C36_gasp_refuted); year 0 raises ValueError before Python 3.8 (C36_python_refuted)."
  },
  {
   "property": "C37",
   "status": "partial",
   "theorems": [
    "Verif.Props.C37_value_partial",
    "Verif.Props.C37_data_partial",
    "Verif.Props.C37_values",
    "Verif.Props.C37_refuted"
   ],
   "note": "Proved for single values and whole dictionaries, equality being Python's ==, for all values that are not nan or infinite. nan and infinities are accepted by the UFO 2 validator, written to UFO 1, and reading raises ValueError or OverflowError (C37_refuted)."
  },
  {
   "property": "C38",
   "status": "partial",
   "theorems": [
    "Verif.Props.C38_readable_partial",
    "Verif.Props.C38_refuted"
   ],
   "note": "Exact characterisation: a valid UFO 2 font info is readable if and only if none of its values is Unreadable. Unreadable valid values exist (C38_refuted): integral floats such as 750.0 for integer attributes, negative unitsPerEm, nan and infinities, negative panose digits."
  },
  {
   "property": "C39",
   "status": "partial",
   "theorems": [
    "Verif.Props.C39_idempotent",
    "Verif.Props.C39_others",
    "Verif.Props.C39_integer",
    "Verif.Props.C39_nonNegative",
    "Verif.Props.C39_minor_partial",
    "Verif.Props.C39_notNumber",
    "Verif.Props.C39_refuted"
   ],
   "note": "All parts proved, except that a non-integer minor version (invalid in UFO 2, but converted without prior validation) is truncated instead of rounded (C39_refuted)."
  },
  {
   "property": "C40",
   "status": "partial",
   "theorems": [
    "Verif.Props.C40_version3",
    "Verif.Props.C40_version2_partial",
    "Verif.Props.C40_version1_partial",
    "Verif.Props.C40_file3",
    "Verif.Props.C40_file2_partial",
    "Verif.Props.C40_refuted"
   ],
   "note": "Version 3 proved in full, for the dictionary and through the property list file; version 2 (also through the file) for values that are valid in UFO 3 and integers where UFO 3 wants integers. Version 1 for finite values that are valid in UFO 3, up to Python equality. Other valid UFO 2 values are changed or refused on reading (C40_refuted, C38_refuted)."
  },
  {
   "property": "C41",
   "status": "partial",
   "theorems": [
    "Verif.Props.C41_identifiers",
    "Verif.Props.C41_complete",
    "Verif.Props.C41_caught",
    "Verif.Props.C41_error_partial",
    "Verif.Props.C41_refuted"
   ],
   "note": "Legal, pairwise different and complete for every sequence of calls, also when the drawing function catches exceptions; violations raise GlifLibError provided the identifiers are hashable. An unhashable identifier (a list) raises TypeError (C41_refuted)."
  },
  {
   "property": "C42",
   "status": "proved",
   "theorems": [
    "Verif.Props.C42_identifiers"
   ],
   "note": ""
  },
  {
   "property": "C43",
   "status": "proved",
   "theorems": [
    "Verif.Props.C43_contours"
   ],
   "note": ""
  },
  {
   "property": "C44",
   "status": "partial",
   "theorems": [
    "Verif.Props.C44_calls_partial",
    "Verif.Props.C44_refuted_trailing",
    "Verif.Props.C44_refuted_type",
    "Verif.Props.C44_refuted_bool",
    "Verif.Props.C44_refuted_none"
   ],
   "note": "Proved for drawings whose numbers are ints or floats and whose contours satisfy the rules of C43. Refuted otherwise: off-curve points before a first line point, unknown segment types, bools as coordinates and points without coordinates are written but not read."
  },
  {
   "property": "C45",
   "status": "proved",
   "theorems": [
    "Verif.Props.C45_unicodes",
    "Verif.Props.C45_firsts"
   ],
   "note": ""
  },
  {
   "property": "C46",
   "status": "proved",
   "theorems": [
    "Verif.Props.C46_advance"
   ],
   "note": ""
  },
  {
   "property": "C47",
   "status": "proved",
   "theorems": [
    "Verif.Props.C47_lines",
    "Verif.Props.C47_stable"
   ],
   "note": ""
  },
  {
   "property": "C48",
   "status": "partial",
   "theorems": [
    "Verif.Props.C48_image_partial",
    "Verif.Props.C48_guidelines_partial",
    "Verif.Props.C48_anchors_partial",
    "Verif.Props.C48_lib",
    "Verif.Props.C48_refuted_image",
    "Verif.Props.C48_refuted_guideline"
   ],
   "note": "Proved for ints and floats (and in full for the lib). Refuted: an image scale of None and bool coordinates pass validation and are written but not read."
  },
  {
   "property": "C49",
   "status": "partial",
   "theorems": [
    "Verif.Props.C49_partial",
    "Verif.Props.C49_anchors_partial",
    "Verif.Props.C49_same_partial",
    "Verif.Props.C49_data",
    "Verif.Props.C49_refuted_identifier",
    "Verif.Props.C49_refuted_undrawn"
   ],
   "note": "Proved for glyphs without identifiers whose numbers are ints or floats and whose contours satisfy the rules of C43, with an exact description of what is read (named one-point move contours become anchors, unnamed anchors become contours). Refuted: identifiers are written in format 1 and rejected on reading; without a drawing function the anchors are lost."
  },
  {
   "property": "C50",
   "status": "partial",
   "theorems": [
    "Verif.Props.C50_unicodes_partial",
    "Verif.Props.C50_components_partial",
    "Verif.Props.C50_image_partial",
    "Verif.Props.C50_written",
    "Verif.Props.C50_refuted_unicodes",
    "Verif.Props.C50_refuted_components",
    "Verif.Props.C50_glyphSet_partial"
   ],
   "note": "Proved for every accepted GLIF document in which no element below the sections is called glyph or outline, and without condition for every glyph this library wrote (C50_written). Refuted for documents with such elements inside a note (or lib, advance, unicode element), which the reader ignores and the rapid parsers do not. C50_glyphSet_partial states the same of getUnicodes, getComponentReferences and getImageReferences on a glyph set on disk."
  },
  {
   "property": "C51",
   "status": "partial",
   "theorems": [
    "Verif.Props.C51_history_partial",
    "Verif.Props.C51_fresh_partial",
    "Verif.Props.C51_default_partial",
    "Verif.Props.C51_refuted",
    "Verif.Props.C51_delete"
   ],
   "note": "Proved for every history of calls in which the file system keeps the glyphs' files apart (C51_history_partial), hence for every naming function that avoids used names ignoring case and for the default one on glyph names whose own files differ ignoring case. Refuted for the default naming function in general: A* and A_ are given the same file and the first glyph is lost."
  },
  {
   "property": "C52",
   "status": "partial",
   "theorems": [
    "Verif.Props.C52_fresh_partial",
    "Verif.Props.C52_own_partial",
    "Verif.Props.C52_safe_partial",
    "Verif.Props.C52_lower_partial",
    "Verif.Props.C52_refuted"
   ],
   "note": "Proved for the default naming function when the files that the naming function gives the glyph names by themselves differ ignoring case (so it is for names of ASCII letters, digits and periods that are short enough not to be cut), or when they are ASCII without capitals (any characters, any length), and for every custom naming function that avoids used names. Refuted in general: A* and A_ get the same file name, B and b_ names equal ignoring case."
  },
  {
   "property": "C53",
   "status": "partial",
   "theorems": [
    "Verif.Props.C53_existing_partial",
    "Verif.Props.C53_others_partial",
    "Verif.Props.C53_early_partial",
    "Verif.Props.C53_refuted"
   ],
   "note": "Proved for glyphs already in the glyph set (nothing changes at all), for failures before a file name is assigned, and in every case for the files and the other glyphs. Refuted for new glyphs: the entry stays in the table and after writeContents the directory cannot be opened."
  },
  {
   "property": "C54",
   "status": "proved",
   "theorems": [
    "Verif.Props.C54_reverse"
   ],
   "note": ""
  },
  {
   "property": "C55",
   "status": "partial",
   "theorems": [
    "Verif.Props.C55_reopen_partial",
    "Verif.Props.C55_crash_partial",
    "Verif.Props.C55_refuted_delete",
    "Verif.Props.C55_refuted_save"
   ],
   "note": "Proved: reopening after writeContents gives the same table when the listed glyphs are readable; a process stopping anywhere (also inside a write) while only glyphs are written leaves the directory as openable as it was. Refuted for deletions before the next writeContents and for stopping inside writeContents."
  },
  {
   "property": "C56",
   "status": "proved",
   "theorems": [
    "Verif.Props.C56_plist",
    "Verif.Props.C56_glyphs",
    "Verif.Props.C56_again",
    "Verif.Props.C56_history"
   ],
   "note": ""
  },
  {
   "property": "C57",
   "status": "proved",
   "theorems": [
    "Verif.Props.C57_lower",
    "Verif.Props.C57_unsupported",
    "Verif.Props.C57_history"
   ],
   "note": ""
  },
  {
   "property": "C58",
   "status": "partial",
   "theorems": [
    "Verif.Props.C58_history_partial",
    "Verif.Props.C58_new_partial",
    "Verif.Props.C58_refuted"
   ],
   "note": "Proved for every history on a writer whose directories are apart at the start (always so for new UFOs), with arbitrary calls in between, except renaming a layer to its own name with defaultLayer=True while another layer is the default layer: refuted, both layers are then in the directory glyphs."
  },
  {
   "property": "C59",
   "status": "partial",
   "theorems": [
    "Verif.Props.C59_partial",
    "Verif.Props.C59_duplicate_refuted",
    "Verif.Props.C59_default_refuted",
    "Verif.Props.C59_name_refuted",
    "Verif.Props.C59_public_refuted",
    "Verif.Props.C59_delete_refuted",
    "Verif.Props.C59_rename_refuted"
   ],
   "note": "Proved for every history (without the call excluded in C58 and without deleteGlyphSet(None)) when the order repeats no name, there is a default layer, no name is empty, public.default is the default layer if it exists, and names are XML text. Each of the conditions is shown necessary by a refutation."
  },
  {
   "property": "C60",
   "status": "partial",
   "theorems": [
    "Verif.Props.C60_lib_partial",
    "Verif.Props.C60_groups_partial",
    "Verif.Props.C60_kerning_partial",
    "Verif.Props.C60_features_partial",
    "Verif.Props.C60_empty_refuted",
    "Verif.Props.C60_info3",
    "Verif.Props.C60_info2_partial",
    "Verif.Props.C60_info1_partial"
   ],
   "note": "Proved through the modelled file system for lib.plist in every version, fontinfo.plist for UFO 3 (and UFO 1 and 2 for values valid in UFO 3), groups.plist and kerning.plist for UFO 3 (for UFO 1 and 2 see C73), and features.fea for UFO 2 and 3: after any further calls that do not touch the file, reading gives back the value written last. Writing an empty value removes the file only if the UFO existed when it was opened: C60_empty_refuted shows that on a new UFO the file written earlier in the same session stays."
  },
  {
   "property": "C61",
   "status": "partial",
   "theorems": [
    "Verif.Props.C61_previous_partial",
    "Verif.Props.C61_metainfo_partial",
    "Verif.Props.C61_contents_partial",
    "Verif.Props.C61_new_refuted"
   ],
   "note": "Proved for UFOs and glyph sets that existed when they were opened: a failing write leaves the plist as it was, including metainfo.plist and contents.plist. C61_new_refuted shows the claim is false for a new UFO: the file is opened for writing before the value is serialised, so a file written earlier in the session is emptied."
  },
  {
   "property": "C62",
   "status": "partial",
   "theorems": [
    "Verif.Props.C62_refuted",
    "Verif.Props.C62_partial",
    "Verif.Props.C62_refuted_name"
   ],
   "note": "Proved for versions 2 and 3, on a new or empty default layer directory, including that the returned glyph set accepts glyphs. Refuted for version 1 (a stray comma makes getGlyphSet raise TypeError always), and for a UFO 3 in which only a non-default layer is called public.default."
  },
  {
   "property": "C63",
   "status": "proved",
   "theorems": [
    "Verif.Props.C63_write",
    "Verif.Props.C63_read",
    "Verif.Props.C63_read_succeeds",
    "Verif.Props.C63_listing",
    "Verif.Props.C63_remove",
    "Verif.Props.C63_version",
    "Verif.Props.C63_read_other"
   ],
   "note": ""
  },
  {
   "property": "C64",
   "status": "proved",
   "theorems": [
    "Verif.Props.C64_table",
    "Verif.Props.C64_inverse"
   ],
   "note": ""
  },
  {
   "property": "C65",
   "status": "partial",
   "theorems": [
    "Verif.Props.C65_extension_partial",
    "Verif.Props.C65_idempotent",
    "Verif.Props.C65_refuted"
   ],
   "note": "Proved for base names with an extension, and idempotence for all paths. Refuted for names without extension: makeUFOPath('dir/something') is 'dir/.ufo'."
  },
  {
   "property": "C66",
   "status": "proved",
   "theorems": [
    "Verif.Props.C66_write",
    "Verif.Props.C66_write_succeeds",
    "Verif.Props.C66_remove",
    "Verif.Props.C66_remove_succeeds",
    "Verif.Props.C66_remove_missing",
    "Verif.Props.C66_remove_force",
    "Verif.Props.C66_force_missing"
   ],
   "note": ""
  },
  {
   "property": "C67",
   "status": "partial",
   "theorems": [
    "Verif.Props.C67_loads_dumps_partial",
    "Verif.Props.C67_loads_dumps_noTuple_partial",
    "Verif.Props.C67_cr_refuted"
   ],
   "note": "Built-in backend, with the XML parser of Spec/Xml.lean standing for expat. Proved for all values whose strings contain no CR; refuted for CR, which is written raw and read as LF."
  },
  {
   "property": "C68",
   "status": "proved",
   "theorems": [
    "Verif.Props.C68_nameRecords",
    "Verif.Props.C68_woff",
    "Verif.Props.C68_image"
   ],
   "note": ""
  },
  {
   "property": "C69",
   "status": "proved",
   "theorems": [
    "Verif.Props.C69_call",
    "Verif.Props.C69_history"
   ],
   "note": ""
  },
  {
   "property": "C70",
   "status": "partial",
   "theorems": [
    "Verif.Props.C70_images_partial",
    "Verif.Props.C70_copy_refuted"
   ],
   "note": "Proved for every history of validated writeImage calls, removeImage calls and calls that do not touch images, whether they succeed or raise. Refuted for copyImageFromReader, which validates nothing."
  },
  {
   "property": "C71",
   "status": "partial",
   "theorems": [
    "Verif.Props.C71_writes",
    "Verif.Props.C71_tree_partial",
    "Verif.Props.C71_bytes_partial",
    "Verif.Props.C71_string_partial",
    "Verif.Props.C71_file_partial",
    "Verif.Props.C71_history_partial",
    "Verif.Props.C71_refuted_tab",
    "Verif.Props.C71_refuted_cr"
   ],
   "note": "Proved for the serializer in Lib/ufoLib/etree.py (used without lxml), format 2 with validation, strings made of XML characters without CR and, in attributes, TAB; numbers ints or floats and outlines as in C44 and C48. Refuted for TAB in a glyph name (comes back as a space) and CR in a lib string (comes back as LF). The serializer of lxml is not modelled."
  },
  {
   "property": "C72",
   "status": "partial",
   "theorems": [
    "Verif.Props.C72_roundtrip_partial",
    "Verif.Props.C72_default",
    "Verif.Props.C72_succeeds",
    "Verif.Props.C72_invalid",
    "Verif.Props.C72_version",
    "Verif.Props.C72_frame",
    "Verif.Props.C72_empty_refuted"
   ],
   "note": "Proved when there is something to write, or the glyph set had a contents.plist when opened, or there is no layerinfo.plist; custom naming functions must not give a glyph the file layerinfo.plist (the default one never does). Refuted otherwise: empty layer info in a new glyph set leaves an earlier layerinfo.plist in place."
  },
  {
   "property": "C73",
   "status": "partial",
   "theorems": [
    "Verif.Props.C73_groups",
    "Verif.Props.C73_kerning_partial"
   ],
   "note": "Groups: proved without restriction on the groups. Kerning: proved when no two groups of a side were given the same new name and kerning does not name missing groups with UFO 3 prefixes; otherwise false, see C14_kerning_refuted. As in C60, empty data must not meet an earlier file on a UFO that did not exist when the writer was opened."
  },
  {
   "property": "C74",
   "status": "partial",
   "theorems": [
    "Verif.Props.C74_opens_new",
    "Verif.Props.C74_opens",
    "Verif.Props.C74_refused",
    "Verif.Props.C74_again",
    "Verif.Props.C74_untouched",
    "Verif.Props.C74_new_untouched",
    "Verif.Props.C74_close",
    "Verif.Props.C74_like_package",
    "Verif.Props.C74_structure",
    "Verif.Props.C74_roots",
    "Verif.Props.C74_twice_refuted",
    "Verif.Props.C74_text_refuted"
   ],
   "note": "Everything is proved except two parts, which are refuted: calling close twice on a writer for an existing archive (for instance close inside a with statement) replaces the archive by one with an empty directory (C74_again: always; packages and new archives are not affected), and structure given as a string is ignored for a new path, which becomes a package. Stopping during close and failures in it: see C126."
  },
  {
   "property": "C75",
   "status": "partial",
   "theorems": [
    "Verif.Props.C75_isolation_partial",
    "Verif.Props.C75_two_partial",
    "Verif.Props.C75_refuted"
   ],
   "note": "Proved for any number of glyph sets and calls. Not true after renameGlyphSet has put two layers into one directory (the bug of C58, C75_refuted), nor for two glyph sets of the same layer or a glyph set kept after its layer was renamed, which is not claimed."
  },
  {
   "property": "C76",
   "status": "partial",
   "theorems": [
    "Verif.Props.C76_saved_partial",
    "Verif.Props.C76_layerinfo_partial",
    "Verif.Props.C76_new",
    "Verif.Props.C76_layer"
   ],
   "note": "Proved for layers that are new in the program, with the default naming function, glyph names whose own files differ ignoring case (C51_refuted shows others), histories after which no glyph is in an unknown state because a call failed (C53_refuted), and layer contents that meet the conditions of C59. C76_new and C76_layer show that opening a writer and getting a glyph set lead to the states the theorem starts from."
  },
  {
   "property": "C77",
   "status": "partial",
   "theorems": [
    "Verif.Props.C77_rename_partial",
    "Verif.Props.C77_succeeds",
    "Verif.Props.C77_refused",
    "Verif.Props.C77_delete",
    "Verif.Props.C77_reader_partial",
    "Verif.Props.C77_refuted"
   ],
   "note": "Proved, except that the directory chosen by renameGlyphSet may be on disk already without being that of a layer (C77_refuted: its files become part of the layer), and except for the call of C58. The part about the reader is under the conditions of C59."
  },
  {
   "property": "C78",
   "status": "partial",
   "theorems": [
    "Verif.Props.C78_readable",
    "Verif.Props.C78_rewrite_partial",
    "Verif.Props.C78_refuted"
   ],
   "note": "Proved for every text whose value has no CR in its strings and no integer beyond 64 bits. For these, and for a file without a value, the code violates it (C78_refuted)."
  },
  {
   "property": "C79",
   "status": "partial",
   "theorems": [
    "Verif.Props.C79_saved_partial",
    "Verif.Props.C79_upgrade_partial",
    "Verif.Props.C79_refuted",
    "Verif.Props.C79_refuted_interrupted"
   ],
   "note": "Proved for content without CR in property list strings and without integers beyond 64 bits. The reader of UFO 2 can deliver such an integer for font info, which cannot be saved (C79_refuted). An upgrade that stops before the layer contents are written leaves a UFO that neither a reader nor a writer opens (C79_refuted_interrupted)."
  },
  {
   "property": "C80",
   "status": "partial",
   "theorems": [
    "Verif.Props.C80_writes_partial",
    "Verif.Props.C80_rewrite_partial",
    "Verif.Props.C80_refuted_tab",
    "Verif.Props.C80_refuted_integer"
   ],
   "note": "Proved for every file whose delivered strings have no CR and, in attributes, no TAB, and whose lib has integers of at most 64 bits. Otherwise it is false: a TAB given as a character reference comes back as a space (C80_refuted_tab), a larger integer is read but refused by the writer (C80_refuted_integer). XML as in Spec/Xml.lean."
  },
  {
   "property": "C81",
   "status": "partial",
   "theorems": [
    "Verif.Props.C81_same_partial",
    "Verif.Props.C81_settles_partial",
    "Verif.Props.C81_refuted_note"
   ],
   "note": "Proved under the conditions of C71 and C80. A note with blank lines or white space around its lines is normalised by the reader, so the first rewriting changes the bytes (C81_refuted_note); from then on they stay the same."
  },
  {
   "property": "C82",
   "status": "partial",
   "theorems": [
    "Verif.Props.C82_call",
    "Verif.Props.C82_history",
    "Verif.Props.C82_reads",
    "Verif.Props.C82_layers_partial",
    "Verif.Props.C82_refuted_delete",
    "Verif.Props.C82_torn_lib"
   ],
   "note": "The entries other than the one the call is about are proved to be unchanged at every crash point without further conditions. The list of layers is proved to be readable except for calls about layercontents.plist or about layer directories; for deleteGlyphSet and renameGlyphSet it is false (C82_refuted_delete): until writeLayerContents is called, the UFO can be opened neither by a reader nor by a writer. The file being written can be lost (C82_torn_lib)."
  },
  {
   "property": "C83",
   "status": "partial",
   "theorems": [
    "Verif.Props.C83_glyph",
    "Verif.Props.C83_save",
    "Verif.Props.C83_history_partial",
    "Verif.Props.C83_reopen_partial",
    "Verif.Props.C83_refuted"
   ],
   "note": "Proved whenever the file system keeps the files of different glyphs apart; false when two glyphs share a file (C83_refuted, cf. C52). Deletions and saving of the table are not covered by the last sentence (C55_refuted_delete, C55_refuted_save)."
  },
  {
   "property": "C84",
   "status": "partial",
   "theorems": [
    "Verif.Props.C84_copy_partial",
    "Verif.Props.C84_named_partial",
    "Verif.Props.C84_saved_partial",
    "Verif.Props.C84_refuted"
   ],
   "note": "Proved with the default naming function for names whose own files differ ignoring case, and with any naming function that gives unused names for all names that a file can hold; false in general (C84_refuted, because of the file name clash of C52). The glyphs must be without the strings and integers no file keeps (C80)."
  },
  {
   "property": "C85",
   "status": "partial",
   "theorems": [
    "Verif.Props.C85_settled_partial"
   ],
   "note": "Under the conditions of C84."
  },
  {
   "property": "C86",
   "status": "proved",
   "theorems": [
    "Verif.Props.C86_draw",
    "Verif.Props.C86_outcome",
    "Verif.Props.C86_path_unique"
   ],
   "note": ""
  },
  {
   "property": "C87",
   "status": "partial",
   "theorems": [
    "Verif.Props.C87_contour",
    "Verif.Props.C87_glyph",
    "Verif.Props.C87_written_partial",
    "Verif.Props.C87_drawn"
   ],
   "note": "The curves, the points and the second reversal in full; writing and reading under the conditions of C80 (strings and integers no file keeps). C87_drawn: drawn with a segment pen, the reversed glyph gives the same paths backwards."
  },
  {
   "property": "C88",
   "status": "partial",
   "theorems": [
    "Verif.Props.C88_paths_partial",
    "Verif.Props.C88_redraw_partial",
    "Verif.Props.C88_refuted_loop"
   ],
   "note": "Proved for all calls but loops without on-curve points that have fewer than two points or coinciding ends; for the latter it is false (C88_refuted_loop). Closing lines of length zero may be missing, and a closed path that does not leave its start becomes a position."
  },
  {
   "property": "C89",
   "status": "partial",
   "theorems": [
    "Verif.Props.C89_copy_partial"
   ],
   "note": "Proved for fonts that files can hold: no carriage returns, no integers of more than 64 bits, no tabs in attributes of GLIF (C78_refuted, C79_refuted, C80_refuted_tab show the loss), and glyph names whose own files differ ignoring case (C84_refuted shows two other names that end in one file). Images and data files are not part of the font here."
  },
  {
   "property": "C90",
   "status": "partial",
   "theorems": [
    "Verif.Props.C90_files",
    "Verif.Props.C90_copy_partial",
    "Verif.Props.C90_apart_refuted"
   ],
   "note": "C90_files has no gap: it assumes only that the paths of the files are apart for the file system, which C90_apart_refuted shows to be needed. The part about the whole font has the limits of C89."
  },
  {
   "property": "C91",
   "status": "partial",
   "theorems": [
    "Verif.Props.C91_files",
    "Verif.Props.C91_layerInfo",
    "Verif.Props.C91_layer_partial",
    "Verif.Props.C91_metaInfo_partial",
    "Verif.Props.C91_features_partial",
    "Verif.Props.C91_info_partial",
    "Verif.Props.C91_glyph_partial",
    "Verif.Props.C91_glyph_any",
    "Verif.Props.C91_readGlyph",
    "Verif.Props.C91_old_partial",
    "Verif.Props.C91_refuted",
    "Verif.Props.C91_glyph_refuted",
    "Verif.Props.C91_old_refuted"
   ],
   "note": "The code raises other exceptions: KeyError for a metainfo.plist without a version, UnicodeDecodeError and FileExpected for features, TypeError for nested lists in the font info, DirectoryExpected for a file in place of a layer, AttributeError for kerning of UFO 1 and 2 that is not nested, and TypeError, AttributeError, AssertionError, IndexError, ValueError and parser errors for GLIF (C91_refuted, C91_glyph_refuted, C91_old_refuted). The partial theorems show that these are the only causes. Directory names in layercontents.plist with a slash are one component there, so the ValueError PyFilesystem raises for names that leave the UFO is not seen (it is in C103)."
  },
  {
   "property": "C92",
   "status": "partial",
   "theorems": [
    "Verif.Props.C92_read_glyph",
    "Verif.Props.C92_write_glyph_partial",
    "Verif.Props.C92_write_glyph_false",
    "Verif.Props.C92_read",
    "Verif.Props.C92_read_old",
    "Verif.Props.C92_open",
    "Verif.Props.C92_write",
    "Verif.Props.C92_listing_false",
    "Verif.Props.C92_listing_partial"
   ],
   "note": "False in two places. A glyph whose unicodes attribute is one integer is accepted with validation and raises TypeError without it, because the value is made a list in the validating branch only (C92_write_glyph_false). The list of images holds files that are not PNG files when it is made without validation (C92_listing_false); those of the validated list are among them (C92_listing_partial). Everything else is proved."
  },
  {
   "property": "C93",
   "status": "partial",
   "theorems": [
    "Verif.Props.C93_settled_partial"
   ],
   "note": "For fonts that files keep: the same restrictions as C89 (no carriage returns, no integers beyond 64 bits, no tabs in attributes of glyphs, glyph names whose own files differ ignoring case), since other values change when they are written and read, see C78_refuted, C80_refuted_tab and C84_refuted."
  },
  {
   "property": "C94",
   "status": "proved",
   "theorems": [
    "Verif.Props.C94_entries",
    "Verif.Props.C94_glyphs",
    "Verif.Props.C94_glyph_sets",
    "Verif.Props.C94_info"
   ],
   "note": ""
  },
  {
   "property": "C95",
   "status": "partial",
   "theorems": [
    "Verif.Props.C95_refused",
    "Verif.Props.C95_succeeds",
    "Verif.Props.C95_others",
    "Verif.Props.C95_file",
    "Verif.Props.C95_directory",
    "Verif.Props.C95_same",
    "Verif.Props.C95_image",
    "Verif.Props.C95_names_refuted"
   ],
   "note": "A directory is copied faithfully only if the destination tells apart all the names copied (hypothesis of C95_directory; C95_same discharges it for file systems that compare names alike). Without it C95_names_refuted: a file is silently lost. Source and destination are different file systems; for copies inside one UFO see C129."
  },
  {
   "property": "C96",
   "status": "proved",
   "theorems": [
    "Verif.Props.C96_glyph",
    "Verif.Props.C96_file",
    "Verif.Props.C96_unique",
    "Verif.Props.C96_order"
   ],
   "note": "Legality and meaning are given in Spec/GlifMeaning.lean and Spec/Numerals.lean as the reader applies them: attributes of glyph, advance, unicode, note and lib elements that GLIF does not define are ignored, not refused. The content of the lib is what the property list reader gives (see C97). Files are UTF-8 or ASCII. With validation, a glyph object and a pen."
  },
  {
   "property": "C97",
   "status": "proved",
   "theorems": [
    "Verif.Props.C97_tree",
    "Verif.Props.C97_file",
    "Verif.Props.C97_unique",
    "Verif.Props.C97_lib",
    "Verif.Props.C97_cut",
    "Verif.Props.C97_lenient"
   ],
   "note": "For property lists that do not follow the document type the reader is lenient (C97_lenient): unknown elements are skipped, an empty key may be left without a value. Files are UTF-8. Real numbers are what the float codec parses."
  },
  {
   "property": "C98",
   "status": "proved",
   "theorems": [
    "Verif.Props.C98_value2",
    "Verif.Props.C98_value3",
    "Verif.Props.C98_read3",
    "Verif.Props.C98_read2",
    "Verif.Props.C98_read1",
    "Verif.Props.C98_write3",
    "Verif.Props.C98_write2",
    "Verif.Props.C98_write1"
   ],
   "note": "Legality is given in Spec/InfoLegal.lean by attribute. Where the code is laxer than the UFO specification the tables say so: openTypeHeadLowestRecPPEM and the two openTypeOS2Win attributes may be any non-negative number, not-a-number passes as one, a character set may be a float, the parts of a date may have signs and underscores. Values are those of property lists or Python objects whose dictionaries have distinct keys."
  },
  {
   "property": "C99",
   "status": "proved",
   "theorems": [
    "Verif.Props.C99_version",
    "Verif.Props.C99_lib",
    "Verif.Props.C99_groups",
    "Verif.Props.C99_kerning",
    "Verif.Props.C99_features",
    "Verif.Props.C99_layers",
    "Verif.Props.C99_contents",
    "Verif.Props.C99_glyph",
    "Verif.Props.C99_layerInfo",
    "Verif.Props.C99_info3",
    "Verif.Props.C99_info2",
    "Verif.Props.C99_info1",
    "Verif.Props.C99_old",
    "Verif.Props.C99_old_meaning"
   ],
   "note": "Files as the document type has them; others (a dictionary with a missing value, text outside elements, unknown elements) are the subject of C46 and C97. C99_old gives the conversion as that of C10 to C13; its meaning (C99_old_meaning) is for groups whose new names do not clash, which the code does not guarantee (C10_copy_refuted). Bytes that are not UTF-8 and XML with other encodings are outside the model."
  },
  {
   "property": "C100",
   "status": "partial",
   "theorems": [
    "Verif.Props.C100_file_partial",
    "Verif.Props.C100_tree_partial",
    "Verif.Props.C100_refuses",
    "Verif.Props.C100_unique",
    "Verif.Props.C100_unique_list",
    "Verif.Props.C100_unique_items",
    "Verif.Props.C100_read",
    "Verif.Props.C100_deprecated_partial",
    "Verif.Props.C100_data",
    "Verif.Props.C100_skip_sorted_refuted"
   ],
   "note": "False of the code for skipkeys together with sort_keys, which is the default: sorting strings with other keys is a TypeError (C100_skip_sorted_refuted); with sort_keys the theorem is about dictionaries with string keys. Strings with CR come back with LF (C67_cr_refuted). dict_type is not modelled; for readPlist and writePlist with paths and open files see C118."
  },
  {
   "property": "C101",
   "status": "proved",
   "theorems": [
    "Verif.Props.C101_alone",
    "Verif.Props.C101_rest",
    "Verif.Props.C101_schedule",
    "Verif.Props.C101_calls",
    "Verif.Props.C101_needed",
    "Verif.Props.C101_needed_glyphs"
   ],
   "note": "The calls are interleaved, not their parts (interrupted calls are the subject of C102). That the parts must be different is shown by C101_needed (two writers of layercontents.plist) and C101_needed_glyphs (two glyph sets on one layer): the last one wins, without any error."
  },
  {
   "property": "C102",
   "status": "proved",
   "theorems": [
    "Verif.Props.C102_same",
    "Verif.Props.C102_alone",
    "Verif.Props.C102_finished",
    "Verif.Props.C102_progress",
    "Verif.Props.C102_rest",
    "Verif.Props.C102_needed"
   ],
   "note": "Each method of the file system is done at once (makedirs, removetree and movedir too). C102_same ties the sequences of file system calls to the models of the calls used elsewhere. That the parts must be different is shown by C102_needed: opening a layer while it is being deleted succeeds with an empty layer whose directory does not exist, which no order of whole calls gives."
  },
  {
   "property": "C103",
   "status": "partial",
   "theorems": [
    "Verif.Props.C103_leads",
    "Verif.Props.C103_files",
    "Verif.Props.C103_outside",
    "Verif.Props.C103_names",
    "Verif.Props.C103_images_partial",
    "Verif.Props.C103_image_names",
    "Verif.Props.C103_images_refuted",
    "Verif.Props.C103_glyphs",
    "Verif.Props.C103_glyphs_read",
    "Verif.Props.C103_history",
    "Verif.Props.C103_open",
    "Verif.Props.C103_chosen",
    "Verif.Props.C103_layer",
    "Verif.Props.C103_layer_names",
    "Verif.Props.C103_table",
    "Verif.Props.C103_layers_refuted"
   ],
   "note": "writeImage, removeImage and copyImageFromReader join the name to 'images/' without looking at it: writeImage('../lib.plist', png) overwrites lib.plist, removeImage('../metainfo.plist') removes it, readImage with the same name raises, and an image named '' becomes a file in the place of the directory (C103_images_refuted; C103_images_partial is for names that do not lead out of the directory). layerContentsValidator accepts 'glyphs.bg/../data' as the directory of a layer, and deleteGlyphSet then removes the data directory (C103_layers_refuted). How PyFilesystem resolves strings is taken from its documentation. renameGlyphSet is not modelled for strings."
  },
  {
   "property": "C104",
   "status": "partial",
   "theorems": [
    "Verif.Props.C104_history",
    "Verif.Props.C104_moments_partial",
    "Verif.Props.C104_open",
    "Verif.Props.C104_listed"
   ],
   "note": "In the middle of calls (C104_moments_partial) renameGlyphSet and the copying of a directory are left out: the model does the first at once, and copies entry by entry without asking again whether the destination still exists. For whole calls they are included, when the renamed layer has no file where its new directory has a directory, and when the destination tells the names of the source apart (otherwise PyFilesystem raises half way, which is not modelled). In the middle of renameGlyphSet of one program: C125_tree."
  },
  {
   "property": "C105",
   "status": "partial",
   "theorems": [
    "Verif.Props.C105_open",
    "Verif.Props.C105_success_partial",
    "Verif.Props.C105_write",
    "Verif.Props.C105_alone",
    "Verif.Props.C105_same",
    "Verif.Props.C105_read",
    "Verif.Props.C105_text",
    "Verif.Props.C105_refuted",
    "Verif.Props.C105_place_refuted"
   ],
   "note": "getFileObjectForPath does not raise but returns a UFOLibError as its value when there is a directory at the path, or anything with mode x (line 1040, C105_refuted). For path strings with . and .. opening may make a directory in the place of the file and then fail (C105_place_refuted); the condition for success is for plain path strings (C105_success_partial). For modes with + and seek see C134."
  },
  {
   "property": "C106",
   "status": "partial",
   "theorems": [
    "Verif.Props.C106_reader_partial",
    "Verif.Props.C106_reader_refuted",
    "Verif.Props.C106_glyphs_partial",
    "Verif.Props.C106_glyphs_refuted"
   ],
   "note": "It holds for readKerning without conditions, and for the others when the caller leaves the groups and maps alone (C106_reader_partial). For UFO 1 and 2 readGroups and getKerningGroupConversionRenameMaps hand out the objects the reader keeps, so changes show up later (C106_reader_refuted). A changed reverse table does not matter as long as no glyph is deleted or its keys are kept (C106_glyphs_partial); otherwise deleteGlyph can raise after it has removed the file (C106_glyphs_refuted). For UFO 3 the reader keeps nothing."
  },
  {
   "property": "C107",
   "status": "partial",
   "theorems": [
    "Verif.Props.C107_any_pen",
    "Verif.Props.C107_raises",
    "Verif.Props.C107_modern",
    "Verif.Props.C107_legacy",
    "Verif.Props.C107_shape",
    "Verif.Props.C107_beginning",
    "Verif.Props.C107_attributes",
    "Verif.Props.C107_absent",
    "Verif.Props.C107_refused",
    "Verif.Props.C107_nothing_refuted",
    "Verif.Props.C107_once_refuted"
   ],
   "note": "C107_any_pen reduces every pen to the calls a recording pen keeps, C107_modern and C107_legacy connect it with Model/GlifReader.lean, on which the other theorems about reading rest; C107_raises, C107_shape, C107_beginning, C107_attributes, C107_absent and C107_refused say the rest. Reading is not all or nothing: a failure in a contour leaves attributes set and a contour without end (C107_nothing_refuted). A pen that raises TypeError for another reason than the keyword gets the call twice (C107_once_refuted)."
  },
  {
   "property": "C108",
   "status": "partial",
   "theorems": [
    "Verif.Props.C108_reversed",
    "Verif.Props.C108_waiting",
    "Verif.Props.C108_legacy_refuted",
    "Verif.Props.C108_guessed_partial",
    "Verif.Props.C108_neutral_refuted"
   ],
   "note": "C108_reversed for the reversing pen; C108_guessed_partial for the guessing pen with a direction test that never raises (numbers too large for floats raise OverflowError in the code). A reversing pen with a contour left waiting by a reading that failed refuses every further outline with AssertionError (C108_waiting). Refuted: in front of a pen that does not know the keyword identifier the reversing pen raises TypeError though the glyph can be read onto that pen directly (C108_legacy_refuted); the guessing pen drops the identifiers of contours and components, forgets given smooth flags, and raises TypeError in front of such a pen (C108_neutral_refuted)."
  },
  {
   "property": "C109",
   "status": "partial",
   "theorems": [
    "Verif.Props.C109_any_pen_partial",
    "Verif.Props.C109_draw_partial",
    "Verif.Props.C109_agrees",
    "Verif.Props.C109_unvalidated_refuted",
    "Verif.Props.C109_component_refuted"
   ],
   "note": "C109_draw_partial for pens whose addComponent does not answer TypeError; C109_any_pen_partial is the same without validation whenever the calls can be turned into segments; C109_agrees says that the simpler model of C86 is exact. Refuted: a TypeError out of the segment pen's addComponent is taken for a pen that does not know the keyword identifier, so that the component is added twice and the exception is lost (C109_component_refuted). Without validation a glyph that can be read can raise AssertionError when it is drawn, with a path begun and not ended (C109_unvalidated_refuted)."
  },
  {
   "property": "C110",
   "status": "proved",
   "theorems": [
    "Verif.Props.C110_plist",
    "Verif.Props.C110_version",
    "Verif.Props.C110_info",
    "Verif.Props.C110_lib",
    "Verif.Props.C110_groups",
    "Verif.Props.C110_kerning",
    "Verif.Props.C110_old",
    "Verif.Props.C110_layers",
    "Verif.Props.C110_glyphSet",
    "Verif.Props.C110_layerInfo",
    "Verif.Props.C110_glyph",
    "Verif.Props.C110_writer",
    "Verif.Props.C110_written",
    "Verif.Props.C110_string"
   ],
   "note": "For files in UTF-8, the encoding of every file the library writes. C110_old is about new readers of a UFO 1 or 2; once a reader has converted, it compares the files with what it has read (C16)."
  },
  {
   "property": "C111",
   "status": "partial",
   "theorems": [
    "Verif.Props.C111_whole",
    "Verif.Props.C111_unicodes_partial",
    "Verif.Props.C111_components_partial",
    "Verif.Props.C111_images_partial",
    "Verif.Props.C111_mapping",
    "Verif.Props.C111_features_partial",
    "Verif.Props.C111_image_partial",
    "Verif.Props.C111_refuted"
   ],
   "note": "C111_whole and C111_mapping: on well-formed files the scanners give what the trees of the files hold (for which C50 speaks). Refuted for files that were cut off (C111_refuted): the parser is not told that the text is over, so that the scanners silently give the first of the code points and components, and no image; C111_unicodes_partial, C111_components_partial and C111_images_partial say that they never raise and never give anything else. Feature text and images are cut off without complaint as well (C111_features_partial, C111_image_partial)."
  },
  {
   "property": "C112",
   "status": "proved",
   "theorems": [
    "Verif.Props.C112_call",
    "Verif.Props.C112_open",
    "Verif.Props.C112_session",
    "Verif.Props.C112_reads",
    "Verif.Props.C112_lib"
   ],
   "note": "A file that is being written holds the beginning of the new data (C82 and C83 allow it to hold anything and speak of the other files). Not for renameGlyphSet, deleteGlyphSet, copying directories, files whose directories have to be made and removals that also remove empty directories: these make several mutations (C82_refuted_delete). Feature text and images are cut off without complaint (C111_refuted); C112_reads says that what is read is the beginning of the text or data."
  },
  {
   "property": "C113",
   "status": "partial",
   "theorems": [
    "Verif.Props.C113_calls_partial",
    "Verif.Props.C113_session_partial",
    "Verif.Props.C113_reopen_partial",
    "Verif.Props.C113_again_partial",
    "Verif.Props.C113_refuted_new",
    "Verif.Props.C113_refuted_copy"
   ],
   "note": "C113_calls_partial is about the calls alone, for any writer; C113_session_partial covers a stop during the opening too, if the writer can be opened again as before; C113_reopen_partial says when it can. Refuted for a new UFO: when the process stops before writeLayerContents, metainfo.plist promises a table of layers that is missing, and no writer can be opened again (C113_refuted_new). Refuted for copyImageFromReader: a copy that was cut off is refused when it is repeated and stays cut off (C113_refuted_copy). Missing: calls that make several mutations (see C82_refuted_delete); the calls are repeated with glyph sets in the state in which they were, see C117 for glyph sets that are obtained again from the interrupted UFO."
  },
  {
   "property": "C114",
   "status": "partial",
   "theorems": [
    "Verif.Props.C114_glyphs_partial",
    "Verif.Props.C114_open",
    "Verif.Props.C114_layer",
    "Verif.Props.C114_edit_partial",
    "Verif.Props.C114_saved_partial",
    "Verif.Props.C114_refuted_case",
    "Verif.Props.C114_refuted_shared",
    "Verif.Props.C114_refuted_table"
   ],
   "note": "C114_edit_partial is the claim for the calls on one glyph set, C114_saved_partial with any other work in between and layer contents written at the end, C114_glyphs_partial for a glyph set alone; C114_open and C114_layer are the steps at the beginning, without restrictions on the names. Refuted: a file whose name has capitals is not recognised as taken and is overwritten by a glyph of another name where case is ignored (C114_refuted_case); tables with two glyphs in one file, or with a glyph in contents.plist, are accepted (C114_refuted_shared, C114_refuted_table). Missing besides: own files of new names that are, ignoring case, the files of other glyphs (where the files in the table have no capitals another file name is found); names with characters that a property list cannot store; a glyph in an unknown state after a failed call (C53_refuted)."
  },
  {
   "property": "C115",
   "status": "partial",
   "theorems": [
    "Verif.Props.C115_glyph_partial",
    "Verif.Props.C115_glyph_lib",
    "Verif.Props.C115_call",
    "Verif.Props.C115_files_partial",
    "Verif.Props.C115_files3",
    "Verif.Props.C115_refuted_unicodes",
    "Verif.Props.C115_refuted_groups",
    "Verif.Props.C115_glyph_relaxed",
    "Verif.Props.C115_refuted_nested"
   ],
   "note": "C115_files_partial is the claim for whole programs, C115_files3 for UFO 3 without restrictions, C115_call for one call, C115_glyph_partial for the file of a glyph (with validation), C115_glyph_lib and C115_glyph_relaxed for glyphs without validation, when the lib (at any depth) and the dictionaries of guidelines, anchors and image have another order. Refuted: two groups with different members that get the same name in a UFO 1 or 2 (C115_refuted_groups; kerning alike), and a dictionary as unicodes (C115_refuted_unicodes). For glyphs the theorems say that both calls raise, not that they raise the same exception: the validator of the lib stops at the first wrong item. Without validation a dictionary inside a guideline is written by its repr, which shows the order (C115_refuted_nested)."
  },
  {
   "property": "C116",
   "status": "proved",
   "theorems": [
    "Verif.Props.C116_reordered",
    "Verif.Props.C116_any_order",
    "Verif.Props.C116_parts",
    "Verif.Props.C116_needed_apart",
    "Verif.Props.C116_needed_data",
    "Verif.Props.C116_needed_table"
   ],
   "note": "C116_reordered for any number of exchanges anywhere in a program, C116_any_order for calls that are independent in pairs between other calls, C116_parts with a condition on the calls only. The conditions are needed: C116_needed_apart (one file), C116_needed_data (calls that make layers), C116_needed_table (making a layer and writing the table of layers)."
  },
  {
   "property": "C117",
   "status": "partial",
   "theorems": [
    "Verif.Props.C117_restart_partial",
    "Verif.Props.C117_obtains_partial",
    "Verif.Props.C117_program_partial",
    "Verif.Props.C117_rerun_partial",
    "Verif.Props.C117_refuted_delete",
    "Verif.Props.C117_refuted_table"
   ],
   "note": "C117_restart_partial for glyph sets that were obtained again, C117_program_partial from the opening of the writer on; C117_obtains_partial and C117_rerun_partial say that the glyph sets are obtained again whenever the tables that were left can be read at all, since every file that such a table names exists. Refuted when a glyph is deleted (C117_refuted_delete: the table that was left names a file that is gone, and the glyph set is refused) and when the process stops while contents.plist is written (C117_refuted_table: no glyph set can be obtained). Missing: programs that make layers, and calls with several mutations."
  },
  {
   "property": "C118",
   "status": "partial",
   "theorems": [
    "Verif.Props.C118_read_closes",
    "Verif.Props.C118_write_closes",
    "Verif.Props.C118_read_path",
    "Verif.Props.C118_read_file",
    "Verif.Props.C118_path_partial",
    "Verif.Props.C118_file_partial",
    "Verif.Props.C118_refused_partial",
    "Verif.Props.C118_refuted"
   ],
   "note": "C118_read_closes and C118_write_closes have no conditions. Writing and reading back has the limits of C100 (no CR in strings). Refuted: writePlist with a path opens and so empties the file before it looks at the value, so that a refused value destroys the property list that was there (C118_refuted); with an open file nothing is written (C118_refused_partial)."
  },
  {
   "property": "C119",
   "status": "proved",
   "theorems": [
    "Verif.Props.C119_missing",
    "Verif.Props.C119_later",
    "Verif.Props.C119_same",
    "Verif.Props.C119_cache",
    "Verif.Props.C119_spared",
    "Verif.Props.C119_session",
    "Verif.Props.C119_glyph",
    "Verif.Props.C119_others",
    "Verif.Props.C119_coarse"
   ],
   "note": "Clocks are fine enough: every change has a later time than the one before. C119_coarse shows that this is needed: with a clock that stands still a changed file keeps its time. Directories: writing a file marks its directory. setModificationTime and file systems that keep no times are not modelled."
  },
  {
   "property": "C120",
   "status": "partial",
   "theorems": [
    "Verif.Props.C120_with",
    "Verif.Props.C120_success",
    "Verif.Props.C120_refuted_unchanged",
    "Verif.Props.C120_refuted_new"
   ],
   "note": "C120_with and C120_success prove everything but the last sentence, which is false: __exit__ closes the writer also after an exception, so an existing archive is replaced by the half made state (C120_refuted_unchanged), and a new archive is made, for example one without a table of layers that cannot be read (C120_refuted_new). close inside the block: see C74."
  },
  {
   "property": "C121",
   "status": "partial",
   "theorems": [
    "Verif.Props.C121_closed",
    "Verif.Props.C121_opened",
    "Verif.Props.C121_open_partial",
    "Verif.Props.C121_path",
    "Verif.Props.C121_missing",
    "Verif.Props.C121_refuted"
   ],
   "note": "Everything is proved except that a writer closes the program's object when metainfo.plist has a format version that is not supported or not a number (C121_refuted); C121_opened says that this is the only case. In C121_open_partial the calls on the writers leave metainfo.plist alone, as in C57. Calls on a writer whose file system was closed are the subject of C122."
  },
  {
   "property": "C122",
   "status": "proved",
   "theorems": [
    "Verif.Props.C122_noticed",
    "Verif.Props.C122_usual",
    "Verif.Props.C122_program",
    "Verif.Props.C122_program_exists",
    "Verif.Props.C122_confined",
    "Verif.Props.C122_closed",
    "Verif.Props.C122_closed_suffers"
   ],
   "note": "The calls are those of C102 (User.prog): the methods of the writer that write, remove, copy and rename, and writeGlyph, deleteGlyph, writeContents and writeLayerInfo of glyph sets. Making the writer (UFOWriter.__init__) and readers: C123. The errors the code asks for (ResourceNotFound, FileExpected, DirectoryExists, DirectoryNotEmpty) are answers and not failures. C122_confined is for operations that fail within Method.Harms."
  },
  {
   "property": "C123",
   "status": "proved",
   "theorems": [
    "Verif.Props.C123_noticed",
    "Verif.Props.C123_given",
    "Verif.Props.C123_usual",
    "Verif.Props.C123_unharmed",
    "Verif.Props.C123_open",
    "Verif.Props.C123_program"
   ],
   "note": "getDataDirectoryListing (which takes every ResourceError for an empty listing) and getImageDirectoryListing are not covered. Opening from a path, where the file system object is made, is not covered: the writer and readers get a file system object. A failure is an exception that the code does not ask for; ResourceNotFound, FileExpected etc. are answers about the files."
  },
  {
   "property": "C124",
   "status": "partial",
   "theorems": [
    "Verif.Props.C124_file",
    "Verif.Props.C124_session",
    "Verif.Props.C124_layers",
    "Verif.Props.C124_default",
    "Verif.Props.C124_glyphSet",
    "Verif.Props.C124_tables",
    "Verif.Props.C124_image",
    "Verif.Props.C124_converted_partial",
    "Verif.Props.C124_refuted"
   ],
   "note": "C124_refuted: a session that renames a group in groups.plist and kerning.plist of a UFO 2, and a reader that reads the groups before and the kerning after it. C124_file, C124_session, C124_layers, C124_default, C124_glyphSet, C124_tables and C124_image are for the other methods; C124_session leaves out features and raw bytes, which can be cut without notice (C112), and says nothing when the state that is compared with cannot be read itself. getCharacterMapping is getGlyphSet and getUnicodes in turn."
  },
  {
   "property": "C125",
   "status": "partial",
   "theorems": [
    "Verif.Props.C125_whole",
    "Verif.Props.C125_kept",
    "Verif.Props.C125_again",
    "Verif.Props.C125_tree",
    "Verif.Props.C125_rename",
    "Verif.Props.C125_program_partial",
    "Verif.Props.C125_refuted"
   ],
   "note": "fs.movedir is taken apart as fs.move.move_dir does it: make the directory, copy the entries (directories before what is in them), remove the entries (directories after it); C125_whole shows that the outcome is that of the model that does it at once. C125_refuted: when the process stops after the old directory is gone and before writeLayerContents, the table names a directory that does not exist, and readers and writers refuse the UFO, although all files are there; C125_program_partial is for stops before that. Other programs do not change the files at the same time."
  },
  {
   "property": "C126",
   "status": "partial",
   "theorems": [
    "Verif.Props.C126_stopped_partial",
    "Verif.Props.C126_fonts_partial",
    "Verif.Props.C126_package",
    "Verif.Props.C126_again",
    "Verif.Props.C126_only_partial",
    "Verif.Props.C126_refuted",
    "Verif.Props.C126_incomplete_refuted"
   ],
   "note": "C126_stopped_partial and C126_fonts_partial: at every moment a reader finds the old font, the new font, or raises UFOLibError; C126_package and C126_again prove the last two sentences (C126_again for existing archives). Two parts are refuted: while the archive is written neither font is there, since it is written in place (C126_refuted); and a failure while files are copied still closes the new archive, which replaces the old one by a part of the new one that readers accept (C126_incomplete_refuted); C126_only_partial says what can be in it. The behaviour of ZipFS is an assumption, see Model/ZipClose.lean; second calls of close on new archives whose writing failed are outside the claims."
  },
  {
   "property": "C127",
   "status": "partial",
   "theorems": [
    "Verif.Props.C127_still",
    "Verif.Props.C127_only",
    "Verif.Props.C127_stayed_partial",
    "Verif.Props.C127_kept",
    "Verif.Props.C127_raises",
    "Verif.Props.C127_refuted"
   ],
   "note": "C127_still proves the first sentence for the walk itself, which also ends; C127_only the second. The third holds if no directory is removed meanwhile (C127_kept) and for failures other than ResourceError (C127_raises); in general the listing is empty or complete (C127_stayed_partial). It is refuted when a directory below data is removed during the walk: the exception is taken for a missing data directory and the listing is empty (C127_refuted), so a program that copies what is listed loses everything. Scanning one directory is one moment in the model."
  },
  {
   "property": "C128",
   "status": "partial",
   "theorems": [
    "Verif.Props.C128_edits_partial",
    "Verif.Props.C128_rest",
    "Verif.Props.C128_turns_partial",
    "Verif.Props.C128_added_refuted",
    "Verif.Props.C128_file_refuted",
    "Verif.Props.C128_deleted_refuted"
   ],
   "note": "C128_edits_partial proves it for programs that write glyphs the table has (and save the table any time), C128_rest what happens to the table and all other files. C128_turns_partial covers adding and deleting for programs that take turns: each reads the table again (rebuildContents) before it starts and saves it when it is done. For glyphs that are added or deleted without taking turns it is refuted: the table saved last loses the glyphs others added (C128_added_refuted), two programs may choose the same file for different new glyphs (C128_file_refuted), and a table saved after another program deleted a glyph makes the layer unreadable (C128_deleted_refuted). Each call is one step here; calls that overlap are the subject of C123 and C124 for reading."
  },
  {
   "property": "C129",
   "status": "partial",
   "theorems": [
    "Verif.Props.C129_refused",
    "Verif.Props.C129_file",
    "Verif.Props.C129_directory_partial",
    "Verif.Props.C129_inside_refuted"
   ],
   "note": "C129_directory_partial proves it for destinations outside of the source, C129_file for files, C129_refused that without a source or with an existing destination nothing happens. For a destination inside of the source directory the claim is refuted for every UFO: the copy never ends (C129_inside_refuted). The model has no limit for the length of paths; on a disk such a copy ends with an exception when the limit is reached. The hypotheses on the file system (Tidy, names compared by an idempotent function, no file on the way to the destination) are those a real file system meets. How copy_dir walks is a fact about PyFilesystem, stated in Model/CopyWithin.lean."
  },
  {
   "property": "C130",
   "status": "partial",
   "theorems": [
    "Verif.Props.C130_item",
    "Verif.Props.C130_now",
    "Verif.Props.C130_segments",
    "Verif.Props.C130_written_partial",
    "Verif.Props.C130_deleted",
    "Verif.Props.C130_attributes_partial",
    "Verif.Props.C130_again_refuted"
   ],
   "note": "C130_now, C130_segments and C130_deleted prove it for the calls, the exceptions and the attributes that the glyph has; C130_item says which objects there are, C130_written_partial that an object obtained before a glyph is written shows what was written. Refuted for attributes that the glyph no longer has: reading sets what it finds and removes nothing, so an object drawn again keeps an old note (C130_again_refuted); C130_attributes_partial says exactly which values an object has. For what a drawing that raises leaves on the object see C132."
  },
  {
   "property": "C131",
   "status": "partial",
   "theorems": [
    "Verif.Props.C131_drawn_partial",
    "Verif.Props.C131_undrawn_refuted",
    "Verif.Props.C131_reused_refuted"
   ],
   "note": "C131_drawn_partial proves it for objects that have been drawn before, with data that files keep (as in C80). For an object that has not been drawn it is refuted for every glyph (C131_undrawn_refuted): the writer takes all attributes but the lib before it draws the object, when there are none yet, so the copy has only the outline and the lib. An object that held another glyph before gives its attributes to the next one (C131_reused_refuted)."
  },
  {
   "property": "C132",
   "status": "partial",
   "theorems": [
    "Verif.Props.C132_layer_read",
    "Verif.Props.C132_info",
    "Verif.Props.C132_refusing_partial",
    "Verif.Props.C132_layer",
    "Verif.Props.C132_glyph_outcome",
    "Verif.Props.C132_glyph",
    "Verif.Props.C132_glyph_others_partial",
    "Verif.Props.C132_glyph_file",
    "Verif.Props.C132_info_refuted",
    "Verif.Props.C132_glyph_refuted"
   ],
   "note": "C132_info proves it for readInfo and objects that accept the attributes, C132_layer and C132_layer_read for layer info, C132_glyph, C132_glyph_outcome and C132_glyph_file for readGlyph when nothing is raised or the file is no XML. Refuted for objects that refuse an attribute (C132_info_refuted: the attributes before it are set; C132_refusing_partial says which can be) and for glyphs with an error inside (C132_glyph_refuted: the elements before it are set already; C132_glyph_others_partial: nothing but attributes of glyphs). Objects are taken to keep what they are given, and setattr to raise nothing but AttributeError."
  },
  {
   "property": "C133",
   "status": "partial",
   "theorems": [
    "Verif.Props.C133_kept",
    "Verif.Props.C133_ended",
    "Verif.Props.C133_saved_partial",
    "Verif.Props.C133_saved",
    "Verif.Props.C133_reused_refuted"
   ],
   "note": "C133_kept and C133_ended say what an object has after any number of UFOs, C133_saved proves the claim for objects whose attributes are all missing or None before, C133_saved_partial says what is written for other objects. Refuted for an object that was used before (C133_reused_refuted: a font without a style name is written with that of the font before). Values must fit property lists (no carriage returns, integers of at most 64 bits)."
  },
  {
   "property": "C134",
   "status": "proved",
   "theorems": [
    "Verif.Props.C134_array",
    "Verif.Props.C134_determined",
    "Verif.Props.C134_others"
   ],
   "note": "C134_array compares the file with the array (Spec/UpdateFiles.lean, byte by byte), C134_determined says that the array is determined, C134_others that other files stay. What io.BufferedRandom does is an assumption of the model: one block is kept back, and seeking, reading, truncating and closing put it on the disk first. What opening does is C105. Files opened as text are not included."
  },
  {
   "property": "C135",
   "status": "partial",
   "theorems": [
    "Verif.Props.C135_carried_partial",
    "Verif.Props.C135_carried",
    "Verif.Props.C135_reused_refuted",
    "Verif.Props.C135_empty_refuted"
   ],
   "note": "C135_carried is the claim for objects that have nothing before (an empty lib is not written); C135_carried_partial for objects that have something. Refuted: an object used for two layers gives the second the color of the first (C135_reused_refuted), and a layer without layer info leaves what a glyph set that was new when it was opened has written before (C135_empty_refuted)."
  },
  {
   "property": "C136",
   "status": "proved",
   "theorems": [
    "Verif.Props.C136_text",
    "Verif.Props.C136_written",
    "Verif.Props.C136_determined",
    "Verif.Props.C136_whole",
    "Verif.Props.C136_invalid"
   ],
   "note": "C136_text compares the calls with the specification (Spec/TextFiles.lean), C136_written is the same for text that was written in pieces, C136_determined says that it leaves no choice, C136_whole that nothing is lost, C136_invalid is about files that are not UTF-8. What io.TextIOWrapper does is an assumption of the model (an incremental decoder that keeps incomplete characters and a carriage return at the end of a block back), and so is that PyFilesystem opens text without translating line ends. The file does not change while it is read. Other encodings are not included."
  }
 ]
}