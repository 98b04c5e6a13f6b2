{"id": "C01", "title": "Extended bytes round trip", "statement": "Writing an integer as a NewGRF extended byte and reading it back with the library's reader returns the same integer and consumes exactly the bytes that were written, whatever follows them; the writer produces one byte for values below 255 and three bytes (255 + LE word) otherwise, and refuses (raises) exactly the values outside 0..65535.", "quantifier": "every integer value, every trailing byte string, every start position in a buffer", "why_tests_cant": "the property must hold for all 65536 values in every surrounding context, and the refusal for all other integers", "anchors": ["grf/common.py:read_extended_byte", "grf/common.py:encode_extended_byte", "grf/common.py:DataReader"]}
{"id": "C02", "title": "Two's complement conversions", "statement": "The unsigned-to-signed conversions for bytes and dwords return, for every in-range unsigned value, the unique signed value congruent to it modulo 2^8 (2^32) in the signed range, and converting back is the identity.", "quantifier": "every unsigned byte and every unsigned dword", "why_tests_cant": "2^32 inputs; boundary mistakes only show at the sign bit", "anchors": ["grf/common.py:utoi8", "grf/common.py:utoi32"]}
{"id": "C03", "title": "Dates encode to the game's day count", "statement": "Date-valued properties are encoded as the number of days since year 0 of the proleptic Gregorian calendar: the encoding is strictly increasing in calendar order over valid dates (so injective), consecutive calendar days get consecutive numbers, and reading a stored day count back gives the date it was made from.", "quantifier": "every valid calendar date of every year >= 0 (no upper bound on the year)", "why_tests_cant": "leap-year rules have a 400-year period and the claim is over unboundedly many dates", "anchors": ["grf/common.py:Date", "grf/common.py:date_to_days", "grf/common.py:days_to_date", "grf/actions.py:DateProperty"]}
{"id": "C04", "title": "Hex text of bytes round trips", "statement": "Rendering a byte string as hex text and parsing the text gives back the same bytes for every byte string except the empty one, whose text is refused; different byte strings have different texts.", "quantifier": "every byte string of every length", "why_tests_cant": "unbounded lengths and contents", "anchors": ["grf/common.py:hex_str", "grf/common.py:str_hex"]}
{"id": "C05", "title": "Sprite references round trip", "statement": "A sprite reference that the constructor accepts is encoded to a 32-bit value from which the reader recovers the same sprite id, palette id, flags and global/local kind; different references have different encodings; every 32-bit value decodes to a reference that encodes back to it.", "quantifier": "every sprite reference, every 32-bit value, both conventions for the global flag", "why_tests_cant": "2^32 values and the flag combinations interact", "anchors": ["grf/actions.py:SpriteRef"]}
{"id": "C06", "title": "Reference words separate actions from callback results", "statement": "The 16-bit result word written for a switch/map target is the action's id when the target is an action and the callback value with bit 15 set when the target is a number; reading the word back classifies it and returns the same id or value.", "quantifier": "every id in 0..32767 and every callback value in 0..32767", "why_tests_cant": "value/id confusion shows only for particular words; the statement is over all of them", "anchors": ["grf/actions.py:Ref", "grf/actions.py:get_ref_id", "grf/actions.py:CB"]}
{"id": "C07", "title": "Scalar and list property values round trip", "statement": "For each property value format the library can write (byte, signed byte, word, dword, label, extended byte, date, id, fixed and counted byte lists, label lists, tile acceptance, size tuple, climate set), the encoder accepts exactly the values in the format's range (a size tuple: exactly those whose combined byte is one) and refuses the others rather than truncating; an accepted value is read back unchanged with exactly the encoded bytes consumed if and only if the format is not the fixed list of eight bytes (which has no reader) and the value is in the reader's form: labels as bytes, ids as numbers, dates as dates of the years 1 to 9999 (or as day numbers outside these years), sizes as pairs of 0 to 15.", "quantifier": "every value of each format, every trailing data", "why_tests_cant": "boundaries of each format and unbounded list lengths; silent truncation is only visible for particular values", "anchors": ["grf/actions.py:DefineMultiple._encode_value", "grf/actions.py:IDProperty", "grf/actions.py:DateProperty", "grf/actions.py:ByteListProperty", "grf/actions.py:TileAcceptanceProperty", "grf/actions.py:SizeTupleProperty", "grf/actions.py:ClimateProperty", "grf/decompile.py:read_property"]}
{"id": "C08", "title": "Item definitions round trip through Action 0 bytes", "statement": "Encoding a definition of properties for consecutive item ids of a feature and decoding the bytes gives back the same feature, first id, item count and for each item the same property values, for any number of properties and items, if and only if every property has exactly one value per item and each of its values is one that comes back by C07 and C09 to C11.", "quantifier": "every feature, any property list with supported formats, any in-range values, any first id", "why_tests_cant": "unbounded lists of properties and items; misframing in one value corrupts all later ones", "anchors": ["grf/actions.py:DefineMultiple.get_data", "grf/actions.py:Define", "grf/decompile.py:decode_action0", "grf/decompile.py:read_property"]}
{"id": "C09", "title": "Structured property codecs round trip", "statement": "Bridge layout tables, dictionary-of-byte-list properties and custom station layouts that are written are read back equal to what was encoded, consuming exactly the encoded bytes, if and only if: for bridge layouts, the sprite references are ones the constructor accepts; for dictionaries, keys are different and non-zero, no key has an empty list and no text contains NUL; for station layouts, the condition of C11.", "quantifier": "every well-formed value of any size, every trailing data", "why_tests_cant": "values are unbounded nested structures with in-band terminators", "anchors": ["grf/actions.py:BridgeLayoutProperty", "grf/actions.py:MultiDictProperty", "grf/actions.py:NewStationLayoutProperty"]}
{"id": "C10", "title": "Industry layouts round trip and never contain a premature terminator", "statement": "Every industry layout list accepted by the property (old tiles, new tiles, special checks) is encoded to a self-delimiting byte string, whose declared size is the size of the layouts, that reads back as the same tile list if and only if the tile constructors accept its items and none of them is a special check (reading one always fails, since a function it needs is not imported); no accepted tile encodes to the 00 80 terminator.", "quantifier": "every list of layouts, every tile list of any length, every trailing data", "why_tests_cant": "in-band terminators: only particular offsets collide", "anchors": ["grf/actions.py:IndustryLayoutsProperty", "grf/actions.py:OldTile", "grf/actions.py:NewTile", "grf/actions.py:SpecialCheck"]}
{"id": "C11", "title": "Station sprite layouts with registers round trip", "statement": "A sprite with register modifiers (do-draw, sprite/palette offsets, bounding box deltas, var10) is encoded so that reading it gives the same sprite with the same registers in the order of the table (children of a sprite are not written); a layout comes back identical if and only if it is a ground sprite without bounding box registers followed by parents not at height 128, without children, with accepted sprite references and registers in table order.", "quantifier": "every sprite, every subset of register modifiers, every insertion order of modifiers", "why_tests_cant": "subsets and orders of modifiers are combinatorial; the reader uses a fixed order", "anchors": ["grf/actions.py:encode_sprite", "grf/actions.py:read_sprite_layout", "grf/actions.py:read_sprite_layout_registers", "grf/actions.py:encode_sprite_layout_registers", "grf/parser.py:SPRITE_FLAGS"]}
{"id": "C12", "title": "Sprite-set header (Action 1) round trips", "statement": "The header announcing real sprite sets decodes to the same feature, first set, set count and sprites per set, exactly when a first set is given or the set count is 1 to 255; a header of zero sets without a first set is written but cannot be read, and above 255 sets the first set comes back as 0 instead of absent.", "quantifier": "every feature, every first set id, every count", "why_tests_cant": "the writer chooses between a short and a long form by value; errors appear only at the boundaries", "anchors": ["grf/actions.py:Action1", "grf/decompile.py:decode_action1"]}
{"id": "C13", "title": "Vehicle/station sprite group bytes round trip", "statement": "A generic sprite group decodes to the same feature, id and the same ordered lists of loaded and loading sets, exactly when the number of loaded sets is not one of the type bytes of a switch (0x80 to 0x86, 0x89, 0x8a); with those numbers of sets it is read as a switch or fails.", "quantifier": "every id, every pair of lists of set numbers the writer accepts", "why_tests_cant": "list lengths and contents unbounded", "anchors": ["grf/actions.py:GenericSpriteLayout", "grf/decompile.py:decode_action2"]}
{"id": "C14", "title": "Graphics map (Action 3) round trips", "statement": "Associating item ids with groups/callbacks per cargo and a default is decoded to the same ids, the same (cargo, target) pairs in the same order and the same default, whether or not ids need extended bytes, exactly when there are 1 to 127 ids, no wagon override is asked for and the targets are reference words; in every other case something different comes back or nothing does.", "quantifier": "every list of ids, every map, every default target", "why_tests_cant": "the encoding of all ids switches when any id is large", "anchors": ["grf/actions.py:Action3", "grf/actions.py:Map", "grf/decompile.py:decode_action3"]}
{"id": "C15", "title": "Strings (Action 4) round trip", "statement": "A string definition the constructor accepts (any feature, any offset width) decodes to the same language, first id and strings in the same order, exactly when the language is 0 to 0x7f, there is at least one string and no string contains NUL.", "quantifier": "every offset, feature and every list of NUL-free strings", "why_tests_cant": "three id widths selected by value and NUL framing of unboundedly many strings", "anchors": ["grf/actions.py:DefineStrings", "grf/decompile.py:decode_action4"]}
{"id": "C16", "title": "Control and replacement actions round trip", "statement": "Each of: replace new sprites (5), modify next action (6), conditional skip (7/9), replace base sprites (A), compute parameter (D), label (10), sound count (11), import sound (FE), comment (0C) encodes to bytes from which the decoder recovers the same fields exactly for the field values that this action can carry (set type 0..0x7f; no parameter 255; a numeric comparison value fitting its size; operations 0..0x0C with a value exactly if a source is 0xff; GRF ids of four bytes), always for 0A, 10 and 11, never for comments; glyphs (12) are written without any ranges and cannot be decompiled at all; any other field values never come back.", "quantifier": "every in-range field value and every list length", "why_tests_cant": "the fields are variable width and the lists unbounded", "anchors": ["grf/actions.py:ReplaceNewSprites", "grf/actions.py:ModifySprites", "grf/actions.py:If", "grf/actions.py:ReplaceOldSprites", "grf/actions.py:ComputeParameters", "grf/actions.py:Label", "grf/actions.py:SoundEffects", "grf/actions.py:ImportSound", "grf/decompile.py"]}
{"id": "C17", "title": "GRF description and error message round trip", "statement": "The GRF header (version, grfid, name, description) decodes to the same fields exactly when the grfid has four bytes and the name contains no NUL; no error action is ever decoded to an action with the same fields: of one with a built-in message the severity, the language and the parameters come back but the message number is lost, and a text message comes back as the text parameter of message 255.", "quantifier": "all grfids, texts and optional parts", "why_tests_cant": "NUL framing of arbitrary text, optional tails", "anchors": ["grf/actions.py:SetDescription", "grf/actions.py:ErrorMessage", "grf/decompile.py:decode_action8", "grf/decompile.py:decode_actionB"]}
{"id": "C18", "title": "GRF info tree (Action 14) round trips", "statement": "Any nested dictionary of GRF properties (strings, numbers, binary, sub-dictionaries; text and numeric keys) with dictionaries outside lists, is encoded so that decoding yields the same tree exactly when at every level the keys have four bytes and are different as bytes and no text contains NUL; otherwise decoding fails or yields another tree.", "quantifier": "every finite tree of any depth and width", "why_tests_cant": "recursive structure with in-band terminators, no bound on depth", "anchors": ["grf/actions.py:SetProperties", "grf/decompile.py:decode_action14"]}
{"id": "C19", "title": "Random switches round trip", "statement": "A random switch the constructor accepts decodes to the same feature, id, scope, triggers, compare mode, lowest bit, count and groups, exactly when its scope is self or parent, its triggers are 0 to 0x7f and its groups are reference words; one of relative scope never comes back.", "quantifier": "every scope, feature, trigger set and every list of groups of length 2^k", "why_tests_cant": "one writer/reader disagreement only affects one scope/feature combination", "anchors": ["grf/actions.py:RandomSwitch", "grf/decompile.py:read_random_switch"]}
{"id": "C20", "title": "Every action's first byte identifies its kind", "statement": "The bytes written for an action start with that action's NewGRF action number exactly when it is neither a comment nor a production callback; the decoder's result always is of a kind having the first byte as its number, and two actions of different numbers (other than those two kinds) never have equal bytes.", "quantifier": "every action of every kind the library can write", "why_tests_cant": "ranges over all kinds and all field values", "anchors": ["grf/actions.py", "grf/decompile.py:decode_pseudo_sprite"]}
{"id": "C21", "title": "Compiled programs compute what the source says", "statement": "Take any lines of source the compiler accepts (literals, variables, temporary and persistent storage, named variables, calls of procedures which are themselves compiled sources, all arithmetic, bitwise, min/max, rotate, shift and comparison operators, nested arbitrarily). Running the emitted VarAction2 bytes on the NewGRF machine, where a call runs the bytes emitted for the procedure, ends with the value the sources denote under 32-bit semantics, with persistent storage and the temporary registers below 0x80 as the sources say. The boundary: variables 0x60..0x7f are written with a parameter and others without; the source does not use registers 0x80..0xff itself; a procedure that needs registers is called only while the caller holds none; no right operand is a variable with a computed parameter (its code means the variable with parameter `left op parameter`, and this is what is computed if no assignment is nested in either operand). Each of these conditions is necessary.", "quantifier": "every source of any size and depth, every chain of procedures, every machine state, every variable environment", "why_tests_cant": "unbounded nesting, and second operands of any shape spill through registers", "anchors": ["grf/parser.py:Expr.compile", "grf/parser.py:Value.compile", "grf/parser.py:Var.compile", "grf/parser.py:Temp.compile", "grf/parser.py:Perm.compile", "grf/actions.py:CodeContext"]}
{"id": "C22", "title": "Spill registers never clobber live data", "statement": "Registers chosen by the compiler for intermediate results are in 0x80..0xff and are never a register holding a live intermediate or a named variable; when no register is free compilation fails instead of reusing one. Running the code compiled for an expression leaves every register that is live at that point unchanged, unless it is a named variable, which then holds the value the source gives it. The boundary is that of C21: in particular a procedure that needs registers, called while a register is live, overwrites it.", "quantifier": "every sequence of reserve/release requests, every expression of any depth compiled in any such context", "why_tests_cant": "clobbering depends on the nesting shape", "anchors": ["grf/actions.py:CodeContext", "grf/parser.py:Expr.compile", "grf/parser.py:AssignVariable"]}
{"id": "C23", "title": "Comparison operators lower correctly", "statement": "The multi-step code emitted for <, >, <=, >=, ==, !=, has-bit and not-has-bit yields 1 when the relation holds and 0 otherwise, for signed 32-bit operands (bit index for the bit tests).", "quantifier": "all pairs of 32-bit operands", "why_tests_cant": "2^64 pairs", "anchors": ["grf/parser.py:NML_OPE", "grf/parser.py:Expr.compile"]}
{"id": "C24", "title": "Decompiled expressions keep their meaning", "statement": "Simplifying a decoded operation chain into comparison operators never changes the value computed, and the lowering of any comparison is recognised as that comparison.", "quantifier": "every operation chain of any length, all operand values", "why_tests_cant": "rewrite rules over unbounded trees; wrong only on particular subtrees", "anchors": ["grf/parser.py:Expr.simplify", "grf/parser.py:NML_OPE_PARSE"]}
{"id": "C25", "title": "Switch ranges select the branch the user wrote", "statement": "For every list of signed ranges and every 32-bit value, the emitted range table (unsigned comparisons, first match wins) selects the target of the first range that catches the value, and the default when none does, where a range catches the values it contains as a signed range and, if it goes from a non-negative to a negative number, also all values from its first number upwards and all up to its second; without ranges the value itself is the result. A table is accepted exactly when words and ends fit and it has at most 255 entries, ranges across zero counting twice.", "quantifier": "every list of ranges including those crossing zero, every 32-bit value", "why_tests_cant": "2^32 values and unbounded range lists; only sign-crossing ranges exercise the split", "anchors": ["grf/actions.py:Switch.get_data"]}
{"id": "C26", "title": "Switch code is well framed and decodes back", "statement": "In the bytes of every accepted switch, every variable access except the last has the continuation bit, the last does not, the range table starts where the code ends, the range count matches the table, and nothing follows the default. The decoder consumes exactly these bytes and yields the same feature, id, scope and default, ranges that choose the same target for every value, and lines which compute, in every game and state, what the game computes by executing the bytes. The boundary: variables 0x60..0x7f are written with a parameter and others without; for decoding, also 0x7B is not written as a variable and 0x1A and 0x7E not with a computed parameter.", "quantifier": "every accepted switch: any lines of any depth, any ranges up to 255 table entries", "why_tests_cant": "the last-operation patch relies on the fixed length of the last operand; only some operand shapes break it", "anchors": ["grf/actions.py:Switch.get_data", "grf/decompile.py:decode_action2", "grf/decompile.py:get_var_node"]}
{"id": "C27", "title": "Reference resolution emits every needed action exactly once", "statement": "If reference resolution succeeds, every action that is needed (directly or through other actions) by an added action which nothing refers to is emitted exactly once, and so is every added action that itself cannot refer to anything; every other action is not emitted at all. In particular, when no raw Ref means an added action, everything the added actions need is emitted exactly once and nothing else is. What is not an action is emitted as often as it was added, the emitted actions of the user keep their relative order, an action gets the feature of the action that needs it, and features and ids set by the user are kept. Adding the same action twice is refused. The boundary is exact: an added action meant only by a raw Ref, and actions that refer to each other in a circle, are left out.", "quantifier": "every acyclic graph of actions of any size, any mix and any order of explicitly added and only-referenced actions, with object and raw references", "why_tests_cant": "any graph; tests only sample shapes", "anchors": ["grf/grf.py:BaseNewGRF.resolve_refs"]}
{"id": "C28", "title": "Action ids never collide while live", "statement": "If the user adds only actions nothing refers to (everything else is pulled in through references) and sets no ids himself, every referenced action gets an id in 1..255, and when two emitted actions have the same id, every reference to the earlier one is emitted before the later one, so each id selects the intended action. Whatever is added and in whatever order, the different actions that one action refers to have different ids, an action referring to more than 255 different ones is refused instead of getting a clash, and ids set by the user are kept. Both conditions are needed: adding an action that is referred to, or setting an id, can make two live actions share an id.", "quantifier": "every acyclic reference graph, every sequence of uses and releases", "why_tests_cant": "id reuse depends on the traversal order and reference counts of the whole graph", "anchors": ["grf/grf.py:BaseNewGRF.resolve_refs"]}
{"id": "C29", "title": "Written file parses back to the written sprites", "statement": "The byte stream produced for a list of pseudo sprites and real sprites is a well-formed container: the reader's loop recovers exactly the list of pseudo sprite payloads and for each sprite id the real sprite data; the data offset field points just past the pseudo sprite section; both sections are terminated. Byte for byte the file is what the container format of version 2 prescribes: magic bytes, offset, no compression, one entry per item in order, the stored data.", "quantifier": "every list of pseudo sprites and resources of any length and content", "why_tests_cant": "length-prefixed streams of arbitrary content; offset arithmetic depends on total length", "anchors": ["grf/grf.py:BaseNewGRF._do_write", "grf/grf.py:BaseNewGRF._write_pseudo_sprite", "grf/decompile.py:NewGRFFile", "grf/decompile.py:read_pseudo_sprite"]}
{"id": "C30", "title": "Sharing identical sprites never changes what a reference shows", "statement": "With duplicate real sprites merged, following the sprite id stored in each real-sprite reference of the written file leads to data identical to that sprite's own data, exactly when no two different lists of sprite data of the file have the same 64-bit hash (the code compares hashes only); and no data is stored twice.", "quantifier": "every list of sprites with arbitrary equalities among their data", "why_tests_cant": "depends on which of arbitrarily many sprites coincide (and on hash collisions)", "anchors": ["grf/grf.py:BaseNewGRF._do_write"]}
{"id": "C31", "title": "Real sprite numbering is a bijection", "statement": "Every real sprite in the file gets exactly one id, ids are 1..n without gaps, and each reference entry uses its own sprite's id.", "quantifier": "every list of sprites in which no resource action occurs twice, with any file dependencies and priorities", "why_tests_cant": "the order depends on dynamic priorities of a loading queue", "anchors": ["grf/grf.py:BaseNewGRF._enumerate_sprites"]}
{"id": "C32", "title": "Source files are loaded before and released after use", "statement": "While a file is written every resource action is processed exactly once, every source file it needs has been loaded before, every needed file is unloaded exactly once and no other file is touched. Each file is also loaded only once and released only after its last use, exactly when in the processing order the first action to need it is not repeated and no action needing it comes for the first time after the last one to need it; in particular whenever no resource action is added twice.", "quantifier": "every assignment of files to resource actions, every list of items, with or without repetitions", "why_tests_cant": "schedules are combinatorial", "anchors": ["grf/grf.py:BaseNewGRF._enumerate_sprites"]}
{"id": "C33", "title": "A failed write leaves the previous file in place", "statement": "Writing the GRF replaces the target with the complete new file exactly when generating and moving it succeed. Otherwise the previous content of the target is untouched, unless the temporary directory is on another device and the copy fails half way; the temporary file is removed unless the failure is an interrupt or removing it fails; the sprite cache index is saved whenever the temporary file could be created and saving works. Killed at any moment, the process leaves the old or the complete new target, or (on another device) a state of the copy.", "quantifier": "every failure or crash point during generation and writing", "why_tests_cant": "every crash/exception point", "anchors": ["grf/grf.py:BaseNewGRF.write"]}
{"id": "C34", "title": "Item ids are unique and stable", "statement": "Within a feature, different names never get the same id, the same name always gets the same id, and saving then loading the id map preserves all name-to-id assignments. A new name gets the first number, after the ids of all names of the feature, that was not used by hand so far. A number used by hand is refused exactly when it was given to a new name earlier in the same build; so it equals the id of a name exactly when the file loaded at the start of the build has that name with that id.", "quantifier": "every sequence of id requests, saves and loads", "why_tests_cant": "histories of requests over several builds", "anchors": ["grf/grf.py:IDMap"]}
{"id": "C35", "title": "Sound ids are unique and in range", "statement": "Each distinct sound gets one id in 73..255 equal to its position in the sound table; adding the same sound again returns the same id; the 184th distinct sound is refused.", "quantifier": "every sequence of added sounds", "why_tests_cant": "histories of additions", "anchors": ["grf/grf.py:BaseNewGRF._add_sound", "grf/actions.py:SoundEffects"]}
{"id": "C36", "title": "Text ids are stable and unique", "statement": "Over any history of additions (with or without a chosen name) and imports of language directories: adding a text without a name gives the same handle as the first time and different texts get different handles; a text is stored exactly if its name is free at that moment and refused otherwise, and the handle then stands for it until an import replaces all texts (a text asked for again after an import, or after a refusal because a chosen name equals the made up one, gets its old handle although that handle no longer stands for it). Registering handles gives ids that never change, equal exactly for equal hashes, counted up from the start of their range in the order of first registration; the written string actions define exactly the ids handed out, each in every language of the handle first registered with its hash by the text of that handle. Global and persistent ids overlap exactly if more than 3072 different global texts and at least one persistent text are registered; writing fails exactly if an id exceeds 0xffff.", "quantifier": "every sequence of additions, imports and registrations, in any number of languages, for any hash function", "why_tests_cant": "histories of registrations", "anchors": ["grf/strings.py:StringManager"]}
{"id": "C37", "title": "Sprite cache returns only data stored under the same fingerprint", "statement": "Over any history, a cache lookup returns nothing or exactly the data last written to the file of an equal fingerprint digest: the data last stored, unless a later store failed half way or something else overwrote the file, whose content is not checked. Entries not used in a build are evicted at its end, used ones survive with their data. A lost cache file, and a lost or unreadable index, result in misses; a clean build starts with misses.", "quantifier": "every sequence of lookups, stores, saves, reloads and external deletions", "why_tests_cant": "multi-build histories and external interference", "anchors": ["grf/cache.py:SpriteCache"]}
{"id": "C38", "title": "Cargo and railtype tables translate labels consistently", "statement": "The railtype and cargo tables written to the GRF have each label once, in the order in which they were first added or given. A railtype gets as id the number of different labels added before, a cargo its last position in the given list. So the id of every label is its index in the written table exactly when no label is added or given twice. Labels that were never added are refused.", "quantifier": "every sequence of table operations", "why_tests_cant": "histories of operations", "anchors": ["grf/grf.py:NewGRF.add_railtype", "grf/grf.py:NewGRF.set_cargo_table", "grf/grf.py:NewGRF.get_cargo_id", "grf/grf.py:NewGRF.map_cargo_labels"]}
{"id": "C39", "title": "Railtype fallback picks the first available type", "statement": "When the game executes the generated railtype table actions, each slot ends up holding the first label of its fallback list that is available, and the last label if none is.", "quantifier": "every table of fallback lists of any length, every set of available railtypes", "why_tests_cant": "the generated skip counts depend on list lengths; the game's availability set is arbitrary", "anchors": ["grf/grf.py:NewGRF._generate_railtype_table"]}
{"id": "C40", "title": "Id ranges cover exactly the given ids", "statement": "Grouping item ids into ranges yields ranges that together contain exactly the given ids, each id once, are sorted, contain only consecutive ids and never exceed the 255 items an action can describe.", "quantifier": "every list of ids of any length", "why_tests_cant": "unbounded lists; boundary at the chunk size", "anchors": ["grf/lib/misc.py:combine_ranges", "grf/lib/misc.py:DisableDefault"]}
{"id": "C41", "title": "Purchase list order is the order the user gave", "statement": "Applying the generated sort commands, in the order they are emitted, to any initial purchase list containing the vehicles puts them in the order the user specified, and variant groups attach every variant to the right parent.", "quantifier": "every purchase order tree with distinct vehicles, every initial list", "why_tests_cant": "the effect of a chain of insert-before commands on arbitrary lists", "anchors": ["grf/lib/vehicle.py:SetPurchaseOrder"]}
{"id": "C42", "title": "Callback switches dispatch each callback to its handler", "statement": "The switch tree generated by the callback manager answers every callback id with the handler the user registered for it on the map, or in the purchase list (for the features that have one); the property callback answers with the handler registered for the property; everything else falls through to the graphics of that situation (0 if there are none). There are exactly two exceptions, both part of the proved answer: the gui of rail, road and tram types takes the place of the graphics, and the two handlers of a property are told apart only if some property has one handler only or two with different references, otherwise the handler for the purchase list also answers on the map. Names are bound to the numbers the game asks for, except for the properties of aircraft (only the loading speed has its number, two are unknown). The flag properties get exactly the flags of the registered callbacks in addition to those already set; except for cargoes and road stops every callback has a bit of its own, so its bit is set exactly if it is registered or was set before. A manager is made, generation is refused, and nothing is generated, exactly in the cases stated.", "quantifier": "every feature, every combination of registered callbacks, properties and graphics, every callback id and argument, on the map and in the purchase list", "why_tests_cant": "2^n registration combinations", "anchors": ["grf/lib/callback.py:CallbackManager", "grf/lib/callback.py:Properties"]}
{"id": "C43", "title": "Articulated trains keep their total length", "statement": "A new train is accepted exactly if its length is at most 24 (and not given twice); its visible and invisible parts add up to the requested length, and each has a length the game allows exactly if the length is positive. The parts that an added articulated part is split into add up to the requested length exactly when it is at most 8 or has the parity of the train's own length; otherwise one unit is missing.", "quantifier": "every train and every length, of the train and of added parts", "why_tests_cant": "must hold for all lengths and for added parts", "anchors": ["grf/lib/train.py:Train"]}
{"id": "C44", "title": "Cropping never removes visible pixels", "statement": "Cropping a sprite removes only fully transparent rows and columns, keeps every visible pixel at the same screen position (offsets compensate), and is minimal. A pixel is visible if its alpha is not 0, or without alpha layer if its colour is not black, or with a mask only if its index is not 0.", "quantifier": "every image of any size and content, every offset", "why_tests_cant": "all images of all sizes", "anchors": ["grf/sprites.py"]}
{"id": "C45", "title": "Palette remaps map exactly the requested ranges", "statement": "A palette remap built from ranges maps each colour as the last covering range says, leaves the others unchanged, and its encoded form is a type byte followed by all 256 entries.", "quantifier": "every list of ranges and every colour", "why_tests_cant": "overlapping ranges in any order", "anchors": ["grf/sprites.py:PaletteRemap"]}
{"id": "C46", "title": "Compressed and chunked sprites decode correctly", "statement": "A sprite the format gives a meaning to is decoded to exactly the pixels it describes if and only if no back-reference is longer than its offset (overlapping its own output); such sprites are refused when plain, and have bytes missing when chunked. Malformed plain data is refused except for back-references of offset 0 to at most the output so far, which repeat its start. Chunked data is accepted exactly when its lines consist of chunks inside the line or single pixels past it, which are ignored, and then is the picture the chunks describe. Everything decoded has the declared size.", "quantifier": "every byte stream", "why_tests_cant": "back-references may overlap their own output; only particular streams exercise that", "anchors": ["grf/decompile.py:decode_sprite", "grf/decompile.py:decode_chunked"]}
{"id": "C47", "title": "Extracted sprite sheets do not overlap", "statement": "The cells allotted to sprites extracted into a sheet are pairwise disjoint and inside the sheet. The sheet shows every sprite unchanged in its cell.", "quantifier": "every list of sprite sizes", "why_tests_cant": "layout of unboundedly many sprites", "anchors": ["grf/decompile.py"]}
{"id": "C48", "title": "Generated resource names are unique", "statement": "Names chosen for decompiled resources never clash with each other or with names already used. Every name asked for has a tidy form p with the same letters and digits (lower case, single dashes, none at the ends; a tidy name is its own), and the first of p.ext, p_2.ext, p_3.ext, ... not yet used is taken. Names consist of safe characters, every extracted sound is in the file named in its code, and a request is refused only after as many names as tries are used.", "quantifier": "every sequence of requested names", "why_tests_cant": "histories of name requests", "anchors": ["grf/decompile.py:find_unique_resource_name"]}
{"id": "C49", "title": "Admin packets are framed with their length", "statement": "Every packet built for the admin port starts with its total length, a stream of packets splits back into the same packets, and their fields read back; the log of a build arrives as one chat packet per line, in order, followed by the reload command.", "quantifier": "every list of fields and every stream of packets", "why_tests_cant": "unbounded packets", "anchors": ["grf/utils.py:make_packet", "grf/utils.py:ttd_pack"]}
{"id": "C50", "title": "Text escapes compile to the intended bytes", "statement": "Compiling a GRF text replaces each escape by the byte or character it denotes, leaves other characters unchanged in UTF-8 and prefixes the unicode marker exactly when needed. A text is accepted exactly when it consists of plain characters and escapes whose number field (the next two characters, four after U, or as many as the text still has) is one Python reads as a hexadecimal number, in range; malformed fields that Python reads leniently (signs, spaces, underscores, a short last field) are therefore accepted, all others refused.", "quantifier": "every text of any length", "why_tests_cant": "escapes at any place in arbitrary text", "anchors": ["grf/strings.py:grf_compile_string"]}
{"id": "C51", "title": "Write reports the source files to watch", "statement": "The set returned by writing a GRF contains every source file used by the file's resources exactly when no source file is used: the returned set is always empty.", "quantifier": "every set of sprites", "why_tests_cant": "must hold for every mix of resources, the returned set is not part of the file", "anchors": ["grf/grf.py:BaseNewGRF.write", "grf/grf.py:BaseNewGRF._do_write"]}
{"id": "C52", "title": "Everything added is emitted in order", "statement": "Every action or sprite passed to add, or yielded by a (possibly nested) sprite generator, appears in the generated list exactly where the order of additions puts it, except for single-resource actions made by the user, which are dropped; sounds go to the sound table, at most 183 different ones; wrapped sounds and a 184th sound are refused with an error. So nothing is lost exactly when no single-resource action was added.", "quantifier": "every tree of generators and every sequence of additions", "why_tests_cant": "generators nest to any depth and mix all kinds of items", "anchors": ["grf/grf.py:BaseNewGRF.add", "grf/grf.py:BaseNewGRF._add", "grf/grf.py:BaseNewGRF.generate_sprites"]}
{"id": "C53", "title": "The visual effect of a vehicle is encoded as chosen", "statement": "The visual effect byte built for a train from an effect, a position and the wagon power choice makes the game show that effect at that position exactly when wagon power is not chosen; it always powers wagons. With wagon power chosen effect and position are lost.", "quantifier": "every effect, position and wagon power choice", "why_tests_cant": "the byte packs three fields that can clobber each other", "anchors": ["grf/lib/train.py:Train.visual_effect_and_powered"]}
{"id": "C54", "title": "Written graphics read back", "statement": "A graphics sprite written to a file reads back with the same zoom, the same layers and, at every screen position, the same pixel; every visible pixel of the source is in the file; the mask is left out only when it is empty; and a sprite is accepted exactly if it has a layer, its layers have the same size and its size and offsets fit 16 bits.", "quantifier": "every image of any size with any layers, every offset and zoom, every lossless compression", "why_tests_cant": "all images of all sizes with every combination of layers", "anchors": ["grf/sprites.py:Sprite.get_real_data", "grf/decompile.py:read_real_sprite", "grf/decompile.py:decode_sprite"]}
{"id": "C55", "title": "Tile sprite layouts round trip", "statement": "A tile layout of houses, industry tiles or objects, with any ground sprite and up to 63 parent and child sprites, is encoded to bytes from which the decoder recovers every sprite in order with its position, extent and modifiers (do-draw, sprite offset, custom palette, the two variable-10 values), and what it recovers is written to the same bytes again. The boundary is exact: the very same layout comes back if and only if it is in the normal form of the reader, no sprite uses the modifiers for palette offset or bounding box registers or the key palette (their bytes are not written, or written without a flag), no parent sprite is at height 128 and the feature is one of the three; a recovered layout is refused by the writer if and only if a parent sprite had a negative coordinate. A basic layout is recovered with a third coordinate and can never be written again.", "quantifier": "all layouts accepted by the constructor, all sprites, positions and modifiers", "why_tests_cant": "unbounded lists of sprites with optional keys in every combination", "anchors": ["grf/actions.py:BasicSpriteLayout", "grf/actions.py:AdvancedSpriteLayout", "grf/decompile.py:read_sprite_layout"]}
{"id": "C56", "title": "The text of decompiled code is read back", "statement": "The text printed for a decompiled switch, one expression per line, is accepted by the expression parser and read as the decompiled expressions (the same operators applied to the same operands, constants as the same words) exactly if every line keeps to what the grammar has: no parameter of a named variable, no unsigned division or remainder, no bit test, modifiers only as add with div or mod, registers of assignments as constants, procedure numbers of one byte, and, wherever the printer omits brackets, a left operand which binds at least as tightly as its operator in the grammar and a right one which binds more tightly. Every other text is refused, or, if it is accepted, regrouped or stripped of its modifiers: it has as many lines, and each line as many nodes as the one printed. Two different expressions of the first kind have different texts.", "quantifier": "all byte strings the decompiler accepts, all expressions of any depth made of any operators, variables, constants, storages and calls, and all lists of lines", "why_tests_cant": "printer and grammar have separate tables of priorities; agreement must be known for every nesting of operators", "anchors": ["grf/parser.py:Expr.format", "grf/parser.py:precedence", "grf/parser.py:parse_code", "grf/decompile.py:decode_action2"]}
{"id": "C57", "title": "Decompiled code can be compiled again without changing its meaning", "statement": "Let a 32-bit switch be decompiled, the text it is printed as be parsed, and the result be compiled. If each printed line is read back as C56 describes, and computed parameters are used only as C24 demands and only with variables 0x60..0x7f, then the compiler accepts the text exactly if no line has modifiers and every constant computed parameter fits (registers below 256, parameters below 2^31); and the new bytes are a complete program which in every state of the game gives the same value and leaves the same storage and registers as the original. Each condition matters: outside C56 the meaning can change silently, with a variable below 0x60 the new bytes are a different program, and modifiers are refused.", "quantifier": "all byte strings the decoder accepts, all variable tables, all game states and all behaviours of variables and procedures", "why_tests_cant": "composition of decoder, simplifier, printer, lexer, parser and compiler on every program", "anchors": ["grf/decompile.py:decode_action2", "grf/parser.py:parse_code", "grf/actions.py:Switch"]}
{"id": "C58", "title": "References resolve to an order where targets come first", "statement": "After reference resolution every emitted action comes after all actions it refers to as objects, provided each added action was added before the added actions that need it, and an action that was not added but is used by several added ones is first used by one nothing refers to. The first condition is necessary in every graph, and if no action is shared it is exactly what decides; a shared action first used by a referenced one can be emitted late. An action meant by a raw Ref comes before the action with that Ref whenever both are emitted.", "quantifier": "every acyclic graph of actions of any size, any mix and any order of explicitly added and only-referenced actions", "why_tests_cant": "any graph; tests only sample shapes", "anchors": ["grf/grf.py:BaseNewGRF.resolve_refs"]}
{"id": "C59", "title": "A building cut into strips looks like the building", "statement": "The strips that Industry.Building cuts its image into, each drawn at its own tile, together show at every pixel exactly what the image drawn in one piece from the western to the eastern corner of the w x h tiles shows: nothing is lost, nothing moved, no pixel shown by two strips, and no tile has two strips. Every strip belongs to a tile of the building, and is at most 231 pixels high unless its tile is on a northern edge. The strips show exactly the pixels of the image, and nothing else of the file, exactly when its x offset is 1-32h and its width 32(w+h).", "quantifier": "every building of any size w,h >= 1, every image size and offset, every pixel", "why_tests_cant": "sizes, image heights and offsets are unbounded; a wrong cut shows on one pixel column of one shape", "anchors": ["grf/lib/industry.py:Industry.Building.get_sprites"]}
{"id": "C60", "title": "Industry layouts draw their buildings", "statement": "An industry built from layouts of square buildings is refused exactly when two buildings of one layout share a tile; otherwise each layout names exactly the tiles its buildings cover, the number computed for a tile of the i-th layout (counted from 0) is that of the strip its building has there (the empty sprite where it has none), and all tiles of a layout together show exactly its buildings, each in one piece at its place, if they lie within the 256 x 256 tiles whose position can be told. Of a building that is not square the code takes the width for both directions: a longer one is cut off, a wider one takes tiles outside its area. The numbers count layouts from 0 while the game counts them from 1.", "quantifier": "every list of layouts, buildings and places, every layout number and tile position", "why_tests_cant": "any number of layouts, buildings and shapes; tests sample a few", "anchors": ["grf/lib/industry.py:Industry.get_sprites"]}
{"id": "C61", "title": "Actions are written in the documented format", "statement": "Each kind of action (sprite sets, sprite groups, random switches, industry production, short and advanced tile layouts, graphics maps, texts, replaced new sprites, modified sprites, conditional skips, descriptions, replaced old sprites, error messages, computations with parameters, labels, sound counts and imports) is accepted and written exactly when each of its numbers fits its field of the documented layout (and the stated conditions on lengths, features and required values hold), and then the bytes are those of the fields in their order, numbers with the lowest byte first.", "quantifier": "every action of each kind, with any numbers, texts and lists of any length", "why_tests_cant": "any numbers and lists; tests sample a few", "anchors": ["grf/actions.py:Action1.get_data", "grf/actions.py:GenericSpriteLayout.get_data", "grf/actions.py:RandomSwitch.get_data", "grf/actions.py:BasicSpriteLayout.get_data", "grf/actions.py:AdvancedSpriteLayout.get_data", "grf/actions.py:Action3.get_data", "grf/actions.py:DefineStrings.get_data", "grf/actions.py:If.get_data", "grf/actions.py:ErrorMessage.get_data", "grf/actions.py:ComputeParameters.get_data"]}
{"id": "C62", "title": "Resolution refuses only what it must", "statement": "If the references between the actions (without circles) are nested less deep than Python's recursion limit and at most 255 of the emitted actions can be referred to (any number if all of these have user-set ids), a set of added actions is accepted exactly when no action is added twice and the features agree: each added action nothing refers to has a feature, everything it needs has this feature or none, and what two of them share gets the same from both. Neither the order of adding, nor how many references there are, nor user-set ids are ever a reason to refuse. An action without an id gets the highest id that is neither in use nor reserved. An action that refers to itself is refused; longer circles are not noticed.", "quantifier": "every graph of actions without circles, every list of added actions, every assignment of features and user-set ids", "why_tests_cant": "any graph, order and number of actions; tests sample a few", "anchors": ["grf/grf.py:BaseNewGRF.resolve_refs"]}
{"id": "C63", "title": "The script of a decompiled file keeps its references", "statement": "For the actions read from a file (ids are not negative, references are numbers), the script printed for them runs: every name it uses has been assigned before, and it makes the same number of actions in the same order, each with its id and feature; each reference is the action its number stood for at that place of the file (the last one before it that can be referred to and has this id), or stays a number if there is none. When these actions are written (all actions that take part in references have a feature, those that can be referred to have an id, and references are nested less deep than Python's recursion limit), they are accepted exactly when every reference goes to an action of the same feature, and then the same actions are emitted in the same order with the same ids, and every reference is written as the number it had in the file.", "quantifier": "every list of actions as read from a file, with any ids (used any number of times) and any references", "why_tests_cant": "any file with any reuse of ids; tests sample a few", "anchors": ["grf/grf.py:BaseNewGRF.generate_python", "grf/grf.py:BaseNewGRF.resolve_refs", "grf/actions.py:ReferenceableAction.py_ref", "grf/actions.py:ReferencingAction._format_ref"]}
{"id": "C64", "title": "The decompiler reads exactly the documented forms", "statement": "A pseudo sprite of the kinds sprite sets, generic groups, random switches, industry production, short and advanced tile layouts, graphics maps, texts, replaced new and old sprites, modified sprites, conditional skips, descriptions, errors, comments, computations with parameters, labels, sound counts and imported sounds is decompiled to a given action exactly when its bytes are the documented form of this action: the fields in their order, numbers with the lowest byte first, lists as long as announced, texts up to their zero byte, anything after the last field of a form with a definite end ignored; a sprite that ends too early is refused. (Differences to the documentation stated in the theorems: the bit for wagon overrides is dropped from the number of ids, of several entries for one cargo the last is kept, the value of a skip that tests a bit is one byte, and the flag for built-in error texts is read the wrong way round.) Glyphs and translations are never decompiled (the classes used do not exist). Definitions of items are the subject of C65, switches of C26 and information trees of C18.", "quantifier": "every byte sequence and every action of each kind, lists of any length", "why_tests_cant": "any bytes, well formed or not; tests sample a few files", "anchors": ["grf/decompile.py:decode_action1", "grf/decompile.py:decode_action2", "grf/decompile.py:read_random_switch", "grf/decompile.py:read_sprite_layout", "grf/decompile.py:decode_action3", "grf/decompile.py:decode_action4", "grf/decompile.py:decode_action5", "grf/decompile.py:decode_action6", "grf/decompile.py:decode_action7or9", "grf/decompile.py:decode_action8", "grf/decompile.py:decode_actionA", "grf/decompile.py:decode_actionB", "grf/decompile.py:decode_actionD", "grf/decompile.py:decode_action12"]}
{"id": "C65", "title": "Item definitions are read exactly in their documented form", "statement": "A pseudo sprite is decompiled to a given definition of item properties exactly when its bytes state it: the feature, the number of properties and of items, the first id as an extended byte, then for each property its number in the table of the feature and one value for each item. Each value is read exactly from its documented form, leaving exactly the bytes after it: numbers of their size, dates as calendar days, labels, counted lists, tile acceptance, sizes, bridge tables, language tables (a key that comes several times collects its texts), industry layouts up to 00 80, old and new station layouts with children under the sprite before them and with the registers their flags announce. Properties the reader does not know are refused, a property that comes twice keeps the last values, bytes after the last property are ignored. Differences to the documentation, stated in the theorems: a label or counted list that the sprite ends before is cut short instead of refused (and a cut label cannot be written again), special checks and borrowed layouts of industries are refused, the reader of an industry layout stops after as many tiles as the layouts have bytes. Outside the claim: a language table whose text has no zero byte at its end, where the code starts over at the beginning of the sprite.", "quantifier": "every byte sequence, every feature, any number of properties, items, layouts, sprites and texts", "why_tests_cant": "any bytes, well formed or not; tests sample a few files", "anchors": ["grf/decompile.py:decode_action0", "grf/decompile.py:read_property", "grf/actions.py:OldStationLayoutProperty.read", "grf/actions.py:NewStationLayoutProperty.read", "grf/actions.py:read_sprite_layout", "grf/actions.py:IndustryLayoutsProperty.read", "grf/actions.py:MultiDictProperty.read", "grf/actions.py:BridgeLayoutProperty.read", "grf/actions.py:DateProperty.read"]}
{"id": "C66", "title": "Running the printed call of a decompiled action makes the action again", "statement": "For every pseudo sprite that the decompiler reads as an action, printing succeeds, and running the printed call (evaluating the arguments, binding them to the constructor's parameters and passing its checks, with references that have values) makes an action with exactly the fields that were read and with these values as its references. The text of a switch may gain blanks and line ends but is parsed as the same program, and its ranges are those of a Python dictionary: if no range (as signed numbers) is given twice they are the same in the same order, so every value is sent to the number the file gives; a range given twice takes the last target at its first place. The calls that cannot be run are exactly those of tile layouts and of definitions with bridge, industry or station layouts in them, whose classes the script does not import. For actions that are read back exactly, write, decompile, run and write gives the same bytes.", "quantifier": "all byte strings read as an action, all contexts, all tables of variables whose names are names, all expressions for the references and all values they have", "why_tests_cant": "there are infinitely many pseudo sprites, and printing, evaluating and constructing are separate code for each of two dozen classes; a test sees one value of one class at a time", "anchors": ["grf/actions.py: py() of all classes, _py_dict, _py_ref_dict, py_property, ClimateProperty.format, constructors of all action classes", "grf/decompile.py: decode_pseudo_sprite", "grf/grf.py: generate_python"]}
{"id": "C67", "title": "Every variable name stands for its field, in code and in decompiled code", "statement": "For every feature with named variables: each name is one field (variable, first bit, number of bits) of one game variable; code that is just the name is accepted and computes exactly the bits of this field, except for the listed names of variables 0x60..0x7f that have no fixed parameter, whose bytes are no complete program. A field found in a file is decompiled to the name that stands for it (for three fields with two names, to the later name), and to no other. Decompiled code that is printed faithfully and put into a switch of the same feature and scope is accepted exactly if its lines can be compiled and all names are names of the feature of the scope; on the object itself, and for vehicles, the new program does exactly what the old one did. For related objects the names of the wrong feature are printed: they are refused for towns, `random_bits` of an industry tile silently becomes another field, and stations and other features cannot have such a switch at all.", "quantifier": "all 11 tables with all their names, all programs in bytes, all game states and behaviours of the rest of the game", "why_tests_cant": "a test runs one name of one table; that a decompiled program means the same needs all programs and all states of the game", "anchors": ["grf/va2vars.py:VA2_VARS", "grf/va2vars.py:VA2_VARS_INV", "grf/actions.py:Switch.parsed_code", "grf/parser.py:Var", "grf/decompile.py:get_var_node"]}
{"id": "C68", "title": "Vehicles draw their own liveries and purchase sprites", "statement": "In every file, after the references have been resolved and actions inserted, an action that mentions a sprite set gets the sprites of the last announcement before the place where its user stands: so the layout of livery i of a ship, road vehicle, train or articulated part draws the eight sprites given for this livery, the purchase layout draws the purchase sprite, and row i of a vehicle sprite table draws the sprites of the row, whatever stands before and after the vehicle and whatever else it refers to. Liveries with another number of sprites are refused. The livery is chosen by the low byte of the cargo subtype (for articulated parts that of the vehicle as many places towards the front as the part's number), and values beyond the last livery give the first; in the written file the game, following the word in the bytes of the vehicle's map, arrives at the layout of that livery. Boundary: layouts shared by several vehicles are not covered: they draw the sprites of the first user only.", "quantifier": "all files (lists of actions and sprites, acyclic references), all numbers of liveries, all vehicles and parts, all game states", "why_tests_cant": "which sprites a set number means depends on everything written before it, and resolving references inserts actions anywhere", "anchors": ["grf/lib/vehicle.py:Vehicle", "grf/lib/vehicle.py:VehicleSpriteTable", "grf/lib/rv.py:RoadVehicle.get_sprites", "grf/lib/ship.py:Ship.get_sprites", "grf/lib/train.py:Train.get_sprites", "grf/lib/train.py:Train._make_graphics", "grf/grf.py:resolve_refs"]}
{"id": "C69", "title": "The numbers the vehicle classes compute, as the game understands them", "statement": "The speed of a road vehicle, given in half km/h-ish, as kmhish, as mph or as a plain number, can be written whenever it is not negative; the game takes exactly the speed the theorem gives (exact for multiples of four, odd km/h-ish one too fast, 511 km/h-ish becomes 510). Ship.kmh and Ship.mph accept exactly 0..255; they give twice the speed (two less above 171 km/h) and twice the rounded 8/5; the property being one byte, ships can have at most 127 km/h or 79 mph; Ship.kmhish gives a quarter of kmh. Train.mph rounds to the nearest km/h-ish. The weight of a train is put together again by the game, and accepted exactly from 0 to 65535 t; the weight given to an articulated part is never used, the part gets that of the train. The visual effect reaches the game without wagon power; with it (the default) every effect and position becomes 7F, a disabled effect. The size of an object is the same byte as that of a plain definition and is read back as the size. The length of a road vehicle is accepted from 1 to 8 and not together with shorten_by.", "quantifier": "all integers as arguments", "why_tests_cant": "rounding, clamping and table look-ups at every number; a test sees a few", "anchors": ["grf/lib/rv.py:RoadVehicle", "grf/lib/ship.py:Ship.kmh", "grf/lib/ship.py:Ship.mph", "grf/lib/ship.py:_check_speed", "grf/lib/train.py:Train.mph", "grf/lib/train.py:Train.visual_effect_and_powered", "grf/lib/train.py:Train.add_articulated_part", "grf/lib/object.py:Object"]}
{"id": "C70", "title": "What a NewGRF says about itself is what the game learns", "statement": "For all arguments of NewGRF and all parameters added with add_bool_parameter and add_int_parameter: the information block is written exactly if the id has four bytes, the blitter is one of the two, all numbers have four bytes, languages are bytes and there are fewer than 256 parameters. Whoever reads the block by the documented format learns, provided no text contains a zero byte, the name and description in all their languages, the link, palette D, the blitter, the version, the lowest compatible version limited by the version (none without a version), the number of parameters (at most 128, 128 if none was added), and for each of the first 128 parameters, in the order they were added, its texts, type, limits, default and the names of its values; nothing else. The action that follows carries the id and the default name and description in the documented form.", "quantifier": "all arguments and all lists of parameters with all their limits, defaults, names of values and languages", "why_tests_cant": "the block is a nested binary format whose reader keeps state; a test sees one set of arguments", "anchors": ["grf/grf.py:NewGRF.__init__", "grf/grf.py:NewGRF.add_bool_parameter", "grf/grf.py:NewGRF.add_int_parameter", "grf/grf.py:NewGRF.generate_sprites", "grf/actions.py:SetProperties", "grf/actions.py:SetDescription"]}
{"id": "C71", "title": "A sprite from the cache is the sprite that would be drawn", "statement": "For all sequences of builds starting from an empty cache, each clean or not, with picture files changed and cache files or the index lost in between, of sprites made by any nesting of FileSprite, EmptySprite, ImageSprite, WithMask, MoveSprite, QuantizeSprite and ZoomDebugRecolourSprite: each build writes for every sprite the bytes that drawing it would give, and fails if drawing it would fail. Conditions: a picture with the same path and modification time is the same picture, attributes are not changed after construction and objects are made anew for each build (each shown necessary), and the digests of the texts that occur do not collide. The text of a fingerprint determines the sprite with all its parts and the times of all its files. Drawing an object a second time in a build gives the same bytes. debug_zoom_levels=True fails for every file with a sprite.", "quantifier": "all sprites of any nesting, all sequences of builds, all changes of files, all losses of cache files", "why_tests_cant": "a test builds once or twice; a wrong key shows only for the right pair of sprites in the right order of builds", "anchors": ["grf/sprites.py:CacheableSprite.get_fingerprint", "grf/sprites.py:FileSprite", "grf/sprites.py:WithMask", "grf/sprites.py:MoveSprite", "grf/sprites.py:QuantizeSprite", "grf/sprites.py:ZoomDebugRecolourSprite", "grf/grf.py:BaseNewGRF.get_sprite_fingerprint", "grf/grf.py:BaseNewGRF._do_write", "grf/cache.py:SpriteCache"]}
{"id": "C72", "title": "What a composed sprite shows", "statement": "For all sprites and pictures: a FileSprite shows, at each of its pixels, the pixel of the picture at its place, and is accepted exactly if its area (the whole picture if the size is left out) is inside the picture; a pixel of exactly the colour key becomes invisible and every other pixel keeps its opacity, colours and palette staying as they are; WithMask combines exactly pictures of equal size of which the second has a palette layer only, and each pixel has the mask's palette index where that is not 0 and the sprite's own elsewhere, other layers staying as they are except that OVERDRAW sets the neutral colour and full opacity where the mask has an index; a moved sprite is read as the same picture with its offsets changed by exactly what was asked, and moves add up.", "quantifier": "all pictures of any size, all pixels, all offsets and masks", "why_tests_cant": "the effect must hold for each pixel of every picture; a test compares a few pictures", "anchors": ["grf/sprites.py:FileSprite.get_image", "grf/sprites.py:FileSprite.get_data_layers", "grf/sprites.py:WithMask.get_data_layers", "grf/sprites.py:MoveSprite", "grf/sprites.py:Sprite.get_real_data"]}
{"id": "C73", "title": "Voxel files and the nearest voxel", "statement": "For every file in the documented voxel format, the size, voxels and colours are read and unknown chunks skipped (a voxel of colour 0, or voxels before any size, are an error). A house drawn from any non-empty set of voxels has the smallest frame that holds every cube, and shows at each pixel the side of the nearest voxel that covers it there (the first of equally near ones), and nothing where no voxel does. The cube of a voxel is where the projection puts it, its second coordinate mirrored, exactly if that coordinate is at most the model's width; a model deeper than wide is torn apart.", "quantifier": "all files of the format with any number of chunks, all sets of voxels in any order, all pixels, all depth orders and palettes", "why_tests_cant": "the nearest of arbitrarily many overlapping voxels must win at each pixel for each order of the voxels; tests draw a few models", "anchors": ["grf/vox.py:VoxReader.read", "grf/vox.py:VoxFile._load"]}
{"id": "C74", "title": "Zooms of a house", "statement": "A house is available in exactly three zooms: every second row at normal zoom, each pixel doubled sideways at 2x, and at 4x each pixel fills four pixels of its own row and shares the rows above and below with its neighbours half by half; between two non-empty pixels of one column, drawn from any voxels, the shared row has no hole: one half has the upper's colour and the other the lower's. Above an empty pixel a right wall keeps its half of the shared row and a left wall loses it.", "quantifier": "all sets of voxels, all pixels, all palettes, all zooms", "why_tests_cant": "absence of holes is a statement on every arrangement of voxels in space; tests look at a few pictures", "anchors": ["grf/vox.py:VoxFile.make_house_sprite", "grf/vox.py:VoxFile._load"]}
{"id": "C75", "title": "The watch command", "statement": "However modifications of files interleave with the loop of the watch command: if a build starts while a file is watched and ends well, then when the loop waits again the build has seen the file as it is now, or its modification is pending (or the file is no longer used); pending modifications are always followed by the start of a build, whatever is modified in between; a build starts only if none has ended well so far or a watched file was modified since the last one started; and what a build sees of a file is never older than the file was at its start. Not covered, and really lost, are modifications of a file during the first build that uses it, and the modification a failed build was to process.", "quantifier": "all interleavings of modifications, observer callbacks, steps of the loop, successful and failed builds, of any length", "why_tests_cant": "a race between the observer's thread and the loop shows only in some schedules; a test runs one", "anchors": ["grf/utils.py:watch_func", "grf/utils.py:async_compile", "grf/grf.py:BaseNewGRF.write"]}
{"id": "C76", "title": "Conversion between palettes", "statement": "A picture with any palette of up to 256 colours is converted to the game's palette so that each pixel keeps exactly its colour where the game has that colour, and otherwise gets the colour chosen as the nearest; indices without colour stay; pixels of colour (0, 0, 255) and no others (among the game's colours) become invisible. Conversions of any sequence of pictures do not influence each other as long as their palettes' hashes differ (with equal hashes the second picture gets the first one's colours). The choice of the nearest colour returns the first least distant colour of the range. The table from the Windows palette keeps every colour except the nine placeholder entries, without merging two of them. Reducing to 8 bits makes invisible exactly the pixels of opacity under 128 and gives all others a colour that is not animated.", "quantifier": "all palettes, all pictures and pixels, all sequences of pictures, all distance functions, all 256 entries of the tables", "why_tests_cant": "needs every palette, every history of the global cache and every entry of the tables; a test converts a few pictures", "anchors": ["grf/sprites.py:fix_palette", "grf/sprites.py:quantize", "grf/colour.py:WIN_TO_DOS", "grf/colour.py:PALETTE", "grf/colour.py:oklab_find_best_colour"]}
{"id": "C77", "title": "Pictures for looking at", "statement": "For every colour and brightness of bytes, the packed brightness adjustment gives exactly the game's result: each part times brightness over 128, with half of the excess over 255 spread over the parts that have room; it stays within a byte and does nothing at 128. The preview picture of a sprite shows at each pixel, for every combination of layers, the colour, the palette's colour, or the palette's colour in the brightness of the pixel, with the opacity given or the default; it fails only for a sprite without any layer.", "quantifier": "all colours, brightnesses, combinations of layers and indices", "why_tests_cant": "packed arithmetic must not leak between parts for any of 2^32 inputs; tests try a few", "anchors": ["grf/colour.py:openttd_adjust_brightness", "grf/sprites.py:Sprite.make_rgba_image"]}
{"id": "C78", "title": "Real sprites are sorted into sounds and groups of graphics by the actions that announce them; sounds are extracted", "statement": "While decompiling a file (container version 2) made of parts, each an action announcing sprite sets, replaced new or old graphics or sounds, followed by at most the announced number of entries, every real sprite is taken for a sound if its last mention stands in a part of sounds and for a graphic of that part's group otherwise; the names of groups (kind and number of earlier parts of the kind) are different for different parts. A sound can be written exactly if the name of its file has at most 255 bytes. What the decompiler saves for a sound is its data followed by one byte too many, the first of what follows in the file.", "quantifier": "all lists of parts and entries, all names, data and following bytes", "why_tests_cant": "the order and number of actions and sprites is unbounded; the extra byte only shows for sounds followed by something other than an end of file", "anchors": ["grf/decompile.py:ParsingContext", "grf/decompile.py:decode_pseudo_sprite", "grf/decompile.py:read_pseudo_sprite", "grf/decompile.py:read_real_sprite", "grf/sprites.py:RAWSound"]}
{"id": "C79", "title": "A decompiled script makes the sprites of the file from the pictures the decompiler saves", "statement": "For every file, the code the decompiler prints for graphics runs with the saved pictures exactly if every group it draws from has a sprite with a layer; it then adds, for each placeholder in order, all sprites with that number that have colours or no opacity layer, in their order in the file, with their sizes, offsets, zooms and pixels. A sprite comes out with the layers it had exactly if it has colours whenever a sprite of its group has a colour layer and a mask whenever one has a mask; otherwise it gets invisible colours or the mask 255. Several alternatives (zooms, depths) of one sprite become sprites of their own, so the number of sprites is kept exactly if no sprite has alternatives.", "quantifier": "all lists of real sprites with all sizes, pixels, layers and numbers, all groups a file can have, all orders of placeholders, all outline colours of duplicates", "why_tests_cant": "the sheets, the variables and the groups interact over arbitrarily many sprites; tests compare single pictures", "anchors": ["grf/decompile.py:GraphicsSpriteGen.py", "grf/decompile.py:save_graphics_resources", "grf/decompile.py:decompile", "grf/sprites.py:FileSprite", "grf/sprites.py:WithMask"]}
{"id": "C80", "title": "Global settings of a file have the effect they name", "statement": "SetGlobalTrainDepotYOffset, SetGlobalTrainMiscFlag and EngineOverride can be written exactly if the offset is a number of 32 bits without sign, the flag one of 32 and the ids four bytes or a number of 32 bits. After the game reads what is written for a list of settings, in order, the depot offset is the last one given (as a signed number), a flag is set exactly if it was set before or is in the list, and each file's vehicles are replaced by those of the last override given for it (the own file if no source is given); nothing else changes. A negative depot offset, the usual kind, is refused, although 2^32 plus that offset would have its effect.", "quantifier": "all lists of settings, all ids, all previous states of the game", "why_tests_cant": "settings accumulate over arbitrarily many actions; tests compare single byte strings", "anchors": ["grf/lib/train.py:SetGlobalTrainDepotYOffset", "grf/lib/train.py:SetGlobalTrainMiscFlag", "grf/lib/vehicle.py:EngineOverride", "grf/actions.py:ComputeParameters"]}
{"id": "C81", "title": "Colours and opacity of a sprite are joined pixel by pixel, also when the original picture is looked up in memory", "statement": "When a sprite with colours and opacity is written, each pixel gets its colour and its opacity, row by row, if the layers are of different arrays, or are the colours and opacity of any rectangular part (also all) of one RGBA picture. The boundary: layers that are another arrangement of all pixels of one picture (mirrored, turned) are written as that picture is, and parts of an array that was reshaped from another number of dimensions fail.", "quantifier": "all sizes, positions, addresses and contents of memory, all steps of the layers", "why_tests_cant": "the shortcut depends on addresses and strides, whose combinations tests cannot exhaust", "anchors": ["grf/sprites.py:restore_rgba_image", "grf/sprites.py:Sprite.get_real_data"]}
{"id": "C82", "title": "The animated picture of a sprite shows what the game shows", "statement": "Sprite.save_gif makes a picture exactly if the sprite has only a mask, no pixel of the radio tower's colours (0xEF, 0xF0) and at least one pixel of the colours 0xE8 to 0xFE. A viewer repeating its frames forever then shows, at every tick and every pixel, the colour the game shows at that tick (transparent for value 0), except that the colours of fizzy drinks (0xE3 to 0xE7) stand still.", "quantifier": "all masks, all ticks, all orders in which a set lists its members", "why_tests_cant": "the picture repeats after the longest of cycles of different lengths while time is unbounded; frames after the first only draw changes", "anchors": ["grf/sprites.py:Sprite.save_gif"]}
{"id": "C83", "title": "Sprites put on a sheet can be cut out of it again", "statement": "SpriteSheet.make_image works exactly if there is at least one column. For every list of sprites and every padding, each sprite is inside the picture with the padding around it, any two are at least the padding apart, the later one to the right in the same row or below; every point of a sprite's rectangle shows its picture, every other point the colour 255. Each sprite object keeps the place of its last occurrence, and cutting this rectangle out of the sheet gives its picture.", "quantifier": "all lists of sprites (also repeated ones), sizes, paddings, numbers of columns, pictures", "why_tests_cant": "row heights and widths depend on all sprites of a row; overlaps only show for particular combinations of sizes", "anchors": ["grf/grf.py:SpriteSheet.make_image"]}
{"id": "C84", "title": "Alternatives of a sprite are told apart by zoom and depth", "statement": "AlternativeSprites accepts a list exactly if no two sprites have the same zoom and depth. get_sprite returns the first alternative meeting what was asked for, and nothing exactly if none meets it; so each alternative whose depth was given is found by its zoom and depth. One whose depth was left open is never found by a depth.", "quantifier": "all lists of sprites, all questions", "why_tests_cant": "any two of arbitrarily many alternatives can collide; a question may leave out zoom, depth or both", "anchors": ["grf/sprites.py:AlternativeSprites"]}
{"id": "C85", "title": "Vehicles answer what their class promises", "statement": "For every train, road vehicle and ship, whatever callbacks the user registered: on the map the vehicle names livery i for cargo subtype i (0x400 beyond the last), plays the given sounds, lists its articulated parts in order from 1 on and ends the list with 0x7FFF, and a fast road vehicle answers its speed; every other callback is answered as the user registered it. In the purchase list it answers the additional text, the articulated parts and the speed, then what the user registered for the list, then the purchase sprite or the graphics. The flags tell the game to ask for exactly the callbacks the user set or registered or the class answers. Setting a callback after construction is the same as passing it to the constructor; what the user passed under a name the class uses is replaced. Generation is refused exactly without graphics, or with handlers of properties together with a property callback, which a fast road vehicle always has. The answers are what the game gets by following the words of the vehicle's entry in the file written, in every game state.", "quantifier": "all user registrations, liveries, sounds, parts, texts, speeds; all callbacks, arguments and cargo subtypes", "why_tests_cant": "the user's registrations and the class's are combined in one dictionary in an order that tests sample only for a few combinations", "anchors": ["grf/lib/train.py:Train._set_callbacks", "grf/lib/rv.py:RoadVehicle.get_sprites", "grf/lib/rv.py:RoadVehicle._set_callbacks", "grf/lib/ship.py:Ship.get_sprites", "grf/lib/vehicle.py:Vehicle._set_callbacks", "grf/lib/callback.py:CallbackDescriptor.__set__"]}
{"id": "C86", "title": "Writing again gives the same file", "statement": "After a write the action objects keep the ids and features that were filled in. Writing the same list of objects again, any number of times, gives the same actions in the same order with the same ids and features; this is so whichever of the objects are kept (with what they remember) and whichever are made again by generators (without). Ids the user set himself may be among them. The list made from generators, the sounds with their ids and the ids of texts are the same too, also when other sounds and texts were added in between. Three conditions are needed: generators yield the same sound objects (a sound made anew is stored again under another id), the objects refer to each other as before (an object that brings a remembered id into another file can share it with a new object of the same action), and nobody uses raw Ref numbers (a remembered id can be one that a Ref names, which changes later ids).", "quantifier": "every reference graph and user-set ids for which the first write succeeds; every choice of which objects remember; any number of writes", "why_tests_cant": "the second write starts from another state, so it takes every decision of id assignment from different data; tests write each object once", "anchors": ["grf/grf.py:BaseNewGRF.resolve_refs", "grf/grf.py:BaseNewGRF.generate_sprites", "grf/grf.py:BaseNewGRF._add_sound", "grf/strings.py:StringManager.add_global", "grf/actions.py:ReferenceableAction"]}
{"id": "C87", "title": "What is reported about a build and about a decompiled file", "statement": "After every write the reported size is the size of the file; the reported number of sprites is that of all resources of the different resource actions, with those taken from the cache and those that cannot be cached counted as such; and the file holds as many real sprites and sounds as that number less the reported duplicates. The decompiler prints a line for exactly the action numbers it met, with how many there were and the sum of their bytes. For a written file these are the actions that were written (those of one byte excepted), and all lines together give the size of the file less the header, the end marks and the one-byte actions - but four bytes too many for each action or reference, so that the sum can exceed the file.", "quantifier": "every list of actions and resources, every hash function, every way the data are got; every file read", "why_tests_cant": "the counters are updated in loops over data of any number and in branches that depend on hashes; the tests print them at most", "anchors": ["grf/grf.py:BaseNewGRF._do_write", "grf/grf.py:WriteContext.print_report", "grf/decompile.py:ParsingContext.count_action", "grf/decompile.py:ParsingContext.count_real_sprite", "grf/decompile.py:read_pseudo_sprite"]}
{"id": "C88", "title": "The game decides as the user's switches mean", "statement": "The user builds switches, random switches, layouts and maps that point to one another and adds the maps, and if he likes layouts, each just before the map that uses it first (as the vehicle classes do with the purchase layout). When the file is written and the game loads its entries in order, then for every map, every cargo type and the default, in every state of the game, following the word in the map's bytes gives what the user's target means - the layout, the callback result or the computed value, with subroutines called as the objects they are and random groups taken by the random bits - and leaves the storage as the target means. Ids and their reuse, the order of the actions, the features handed on, the bytes of code and ranges and the framing of the file do not show in the result.", "quantifier": "every acyclic set of switches, random switches, layouts and maps of any size, depth and sharing; every order of adding; every state, variables and random bits of the game; every other item in the file", "why_tests_cant": "it composes resolution, compilation, encoding and the container over unbounded graphs and all states of the game; a test runs no game", "anchors": ["grf/grf.py:BaseNewGRF.resolve_refs", "grf/grf.py:BaseNewGRF._do_write", "grf/actions.py:Switch.get_refs", "grf/actions.py:Switch.get_data", "grf/actions.py:Action3.get_refs", "grf/actions.py:RandomSwitch.get_refs", "grf/actions.py:RandomSwitch.get_data", "grf/actions.py:Action3.get_data", "grf/actions.py:get_ref_id"]}
{"id": "C89", "title": "Registered callbacks answer in the game", "statement": "The user registers graphics, property handlers and callbacks for an item and adds the map action the callback manager makes. In the written file, when the game asks the item - on the map or in the purchase list - for a callback number with an argument, in any state, it follows the words, ids and switches in the bytes to what the handler that counts as registered for that callback, property and situation means (a number, a layout, or what the user's own switches decide), and leaves the storage as that means.", "quantifier": "every feature with named variables, every set of registered handlers, every further object and item in the file, every callback number, argument, state and random bits of the game", "why_tests_cant": "it composes the manager's tables and switches with compilation, resolution, encoding and the container over unbounded object graphs; a test runs no game", "anchors": ["grf/lib/callback.py:CallbackManager.make_switch", "grf/lib/callback.py:CallbackManager.make_map_action", "grf/lib/callback.py:CallbackManager.Properties.make_switches", "grf/actions.py:Map", "grf/actions.py:Switch.get_data", "grf/grf.py:BaseNewGRF.resolve_refs"]}
{"id": "C90", "title": "The purchase list shows the purchase sprite", "statement": "A vehicle with a purchase sprite adds a layout for it to the file ahead of its map action. In the file as resolved, the reference to this layout - in the map, or as default of the switch over the purchase callbacks - selects this layout and no other action with the same id, and the layout draws the purchase sprite. More generally every reference in the file selects its target when the added actions others refer to are each added for the next action. Boundary: the switches and handlers of the vehicle's map are met there for the first time; a handler given for two purchase callbacks, or graphics used by a purchase callback, can make the purchase list show another layout.", "quantifier": "every acyclic reference graph, every list of added sprites in which each added action nothing else refers to, or is added for the next, every number of vehicles, callbacks and handlers", "why_tests_cant": "whether an id is still free depends on the whole traversal and on what is emitted between a target and its users; a test sees one graph", "anchors": ["grf/lib/vehicle.py:Vehicle._gen_purchase_sprites", "grf/lib/callback.py:CallbackManager.make_switch", "grf/lib/ship.py:Ship.get_sprites", "grf/lib/train.py:Train.get_sprites", "grf/grf.py:BaseNewGRF.resolve_refs"]}
{"id": "C91", "title": "The switches of an industry's tile choose the tile's sprite", "statement": "An industry of the library has one tile type whose graphics are switches: over the industry's layout (in the related scope), over the tile's position in it, and the code that stores the number found in register 0. In every state of the game, at a tile of layout i and position (x, y) of the industry, these switches - as the texts of their code are parsed, with the variables of their scopes and the subroutine called by name - draw the sprite layout with the number of a sprite of the set in register 0, which is the strip of the building that stands there, or the empty sprite where none has a strip; nothing else in the storage changes. The same holds from the tile's map, for whatever callback the graphics are the handler.", "quantifier": "every set of buildings and layouts, every tile, every state and variables of the game, every store of further objects", "why_tests_cant": "it composes the cutting of buildings, dictionaries keyed by position, parsing, named variables of two scopes and switches that call switches, over all states of the game; a test runs no game", "anchors": ["grf/lib/industry.py:Industry.get_sprites", "grf/lib/industry.py:Building.get_sprites", "grf/va2vars.py:VA2_VARS", "grf/parser.py:parse_code", "grf/actions.py:Switch"]}
