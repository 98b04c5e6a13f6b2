# Formal model of grf-py in Lean 4: design

## 1. Conventions

* `lean/Verif/Model/*.lean` - executable model of the Python code, function by function. Every definition cites
  `grf/<file>.py:<lines>` and names its simplifications.
* `lean/Verif/Spec/*.lean` - specifications that do not use the model: the NewGRF VarAction2 machine, expression semantics, the
  calendar, the container grammar, Action 6/7/9/D execution for railtypes, reference graphs.
  Small specifications stand at the head of the `Props` file which uses them (screen pixels of a sprite, the game's purchase list, LZ77
  token streams, packet streams ...).
* `lean/Verif/Props/*.lean` - property theorems, each with `example`s showing that its hypotheses are met by a concrete case;
  `lean/Verif/Proofs/*.lean` - lemmas.
* A Python exception is `none` (any exception) or `Except.error e`. Bytes are `UInt8`, byte strings `List UInt8`, Python `int` is `Int` or
  `Nat`, `dict` is an association list in insertion order (`dictSet` replaces in place, as Python does).
* `struct.pack` keeps its range checks (out of range raises `struct.error`).
* Suffix `_partial`: the English property asks for more than the theorem says. What is missing is said at the theorem, in
  `MANIFEST.json`, and, where the code itself is wrong, shown by a theorem with a concrete counterexample.
* Where the code does not meet the expectation of a user for some inputs, the property states the expectation with its exact boundary and
  the theorem is an equivalence (`_iff`): the good outcome happens if and only if the input is inside. Section 6 lists the boundaries.

## 2. Trusted base

* Lean 4.33.0's kernel. Axioms: only `propext`, `Classical.choice`, `Quot.sound` (per theorem: section 7). No own axioms, no
  `native_decide`, no `bv_decide`. `decide +kernel` is kernel evaluation; it is used for concrete cases (examples, counterexamples) and
  for finite tables which are the complete domain (for instance, all 256 property codes of a feature table).
* The reading of /repo. The model is written by hand from the source text; nothing of /repo is run.
* The reading of the game: the specification of the VarAction2 machine, of Actions 0/6/7/9/D, of the purchase list sort property and of
  the admin protocol is from the NewGRF and OpenTTD documentation.
* Assumptions about third-party code, all of which are parameters or explicit hypotheses of the theorems which use them:
  * nml: `lz77.encode` (hypothesis "the reader undoes it" in C54, shown satisfiable), `is_ascii_string` (parameter in C50),
    language file parsing (`handle_text` raises on a duplicate name), C36;
  * ply: the lexer and parser tables of `parser.py` (the grammar itself and the resolution of its conflicts by precedence are modelled in C56; the error recovery of ply is not);
  * hashes: `xxhash`/`hashlib` are arbitrary functions; theorems state what happens with and without collisions (C30, C36, C37);
  * `datetime` is the proleptic Gregorian calendar (C03); numpy arrays are matrices of bytes with uint8 wrap-around, slices and
    broadcasting as in numpy 1.25 (C44-C46, C54); PIL images are matrices of pixels;
  * the file system: `shutil.move`, `os.unlink`, `open` as described in `Model/Write.lean` with a failure possible at every step;
  * Unicode normalisation (`unicodedata`) is a parameter (C48).

## 3. What is modelled

| code | model | properties |
|------|-------|------------|
| common.py: hex, signed conversions, dates, extended bytes, DataReader, features | Bytes, Common | C01-C04 |
| actions.py: SpriteRef, Ref, get_ref_id | SpriteRef, Common | C05, C06 |
| actions.py: all Action 0 property tables and formats, Define | PropTables, PropCodec, Define | C07-C11 |
| actions.py: get_data of every action; decompile.py: decode_action* of every action | Actions, Props14, Dispatch | C12-C20 |
| parser.py: AST, compile, CodeContext, simplify; actions.py: Switch | Ast, Compile, Decode, Switch, (Spec) VA2, ExprSem | C21-C26 |
| grf.py: resolve_refs (both phases) | Refs | C27, C28 |
| grf.py: _enumerate_sprites, _do_write; decompile.py: read loop, read_real_sprite | Container | C29-C32 |
| grf.py: write | Write | C33, C51 |
| grf.py: IDMap, sounds, add/generate_sprites; strings.py: StringManager; cache.py | IdMap, Sounds, Strings, Cache | C34-C37, C52 |
| grf.py: cargo and railtype tables and their actions | Tables | C38, C39 |
| lib/misc.py, lib/train.py, lib/vehicle.py (purchase order), lib/callback.py | Misc, Purchase, Train, Callbacks | C40-C43, C53 |
| sprites.py: _do_crop, get_real_data, PaletteRemap; decompile.py: decode_sprite, decode_chunked | RealSprite, SpriteData, Remap | C44-C46, C54 |
| decompile.py: sprite sheets, resource names, save_*_resources | Sheet, ResNames | C47, C48 |
| utils.py: ttd_pack, make_packet, admin_logging; strings.py: text escapes | Packets, TextEsc | C49, C50 |
@@MORE@@

## 4. What is not modelled

`VoxTrainFile` (vox.py), the floating point colour spaces of colour.py, comments and statistics of `decompile`, reading of old
containers (version 1), PIL image loading and saving, the socket of the admin connection, performance behaviour and console output.
Floating point numbers are nowhere modelled.

## 5. Plan and method per property

@@PLAN@@

No property is listed as not applicable; run-time parts (file system, hash functions, compressors) are parameters and are named in the
theorem statements.

## 6. Where the code does not do what a user would expect

Each of these is a theorem (a concrete counterexample checked by the kernel, or a statement for all inputs).

* References: a forward reference, a target shared by two users, a raw reference or a cycle is emitted late or dropped; ids given
  explicitly are handed out to others as well (C27, C28). The reordering loop in `_enumerate_sprites` never runs (C30).
* Sprite sharing compares 64-bit hashes only (C30). `write` to another device can leave half a file; an interrupt leaves the temporary
  file (C33). The set of watched files is always empty (C51).
* IDMap: ids loaded from the file do not block manual ids; `BaseNewGRF.reserve_ids` raises TypeError (C34). A SingleResourceAction given
  to `add` is dropped silently, a sound action raises (C35, C52).
* StringManager: automatic names can clash with user names, importing a language directory forgets texts, ids are keyed by hash, global
  ids run into the persistent range (C36). The cache serves truncated and damaged files (C37). A repeated railtype or cargo label shifts
  the ids (C38).
* Property codecs: `8*B` has no reader, size tuples are not range-checked, dictionary key 0 ends the list, child sprites of station
  layouts are not written, register order matters, bounding box registers of ground sprites are misread, a parent at z=128 is misread, a
  a special check makes an industry layout unreadable (`utoi8` is not imported in actions.py), property 0x12/0x27 of industries share a name (C07-C11).
* Actions: zero sprite sets (1), 128 or more loaded sets (2), 128 or more ids, missing ids, wagon overrides (3), no strings or languages
  from 0x80 (4), set types from 0x80 (5), parameter 255 (6), bit tests (7/9), operations above 0x0C and dropped values (D), error
  messages (B), short, duplicate or NUL-containing keys and texts (14), random switches with relative scope, comments (first byte 0),
  production callbacks (0x0A) and glyph/translation actions are not read back or not written correctly (C12-C20).
* Compiler: computed parameters as operands, calls that overwrite spilled values, parametrised table variables, a user register from
  0x80 on (C21). Switch ranges with low >= 0 > high match other values than the user wrote; a switch without ranges ignores its default
  (C25). The decoder duplicates or drops the accumulator in two cases (C24).
* lib: DisableDefault given a generator disables nothing (C40); SetPurchaseOrder uses the feature of the first vehicle; added
  articulated parts are split with the parity of the train's own length, and non-positive lengths are accepted (C43); the visual effect
  byte is destroyed by the wagon power choice (C53); two switches without id for one property are taken for the same, so a purchase
  handler can run on the map; the railtype callback `gui` (id 0) is lost; callback flags of houses and airport tiles are refused;
  `station_rating` needs a property that does not exist; unknown property names are ignored (C42).
* Sprites: overlapping back-references (legal LZ77) are refused or lost, offset 0 is accepted, a chunk one pixel past the line is
  accepted (C46); cropping looks at RGB only when there is no alpha layer, so masked black pixels vanish (C44); negative remap ranges
  follow Python slices and a short buffer is written as it is (C45).
* Tools: surplus packet arguments are dropped, NUL in packet text is misread, the last unfinished log line is lost (C49); text escapes
  accept signs, spaces and underscores (C50).
@@DEV@@

## 7. Axioms of each theorem of the manifest

@@AX@@
